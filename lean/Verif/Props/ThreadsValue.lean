import Verif.Props.Threads
import Verif.Props.WrapOps
import Verif.Props.SparseFill
import Verif.Props.Value
/-!
# C92: threads that share a histogram behind a lock: the library's value types
-/
set_option linter.unusedSectionVars false
namespace NdHist
open RNum

section
variable [cfg : Cfg] {V C T : Type} {τ κ : IntTy}

omit cfg in
theorem swappable_of {a b : Call V C} (h : ∀ v x y, a.on v = (x, none) → b.on x = (y, none) → ∃ x', b.on v = (x', none) ∧ a.on x' = (y, none)) : Swappable a b := by
  intro v
  rcases ha : a.on v with ⟨x, _ | p⟩
  · rcases hb : b.on x with ⟨y, _ | p⟩
    · obtain ⟨x', h1, h2⟩ := h v x y ha hb
      intro _
      simp [fillSeq, ha, hb, h1, h2]
    · intro hn; simp [fillSeq, ha, hb] at hn
  · intro hn; simp [fillSeq, ha] at hn

/-- two summands that can be added in the other order -/
def AddSwaps [RNum T] (d e : T) : Prop := ∀ v x y : T, add v d = .ok x → add x e = .ok y → ∃ x', add v e = .ok x' ∧ add x' d = .ok y

theorem addAssign_ok_iff [RNum T] {d v x : T} : addAssign d v = (x, none) ↔ add v d = .ok x := by
  rw [addAssign_eq]
  cases h : add v d <;> simp

theorem AddSwaps.swappable [RNum T] {d e : T} (h : AddSwaps d e) {a b : Call T C} (ha : a.on = addAssign d) (hb : b.on = addAssign e) : Swappable a b := by
  refine swappable_of fun v x y hx hy => ?_
  rw [ha, addAssign_ok_iff] at hx
  rw [hb, addAssign_ok_iff] at hy
  obtain ⟨x', h1, h2⟩ := h v x y hx hy
  exact ⟨x', by rw [hb, addAssign_ok_iff]; exact h1, by rw [ha, addAssign_ok_iff]; exact h2⟩

theorem addSwaps_int {d e : MInt τ} (h : Cfg.checked = true → 0 ≤ d.val ∧ 0 ≤ e.val) : AddSwaps d e := by
  intro v x y hx hy
  rw [MInt.add_def] at hx hy
  by_cases hc : Cfg.checked = true
  · obtain ⟨hd, he⟩ := h hc
    have fits : ∀ {k : ℤ} {z : MInt τ}, (MInt.arith k : Res (MInt τ)) = .ok z → InRange τ k ∧ z.val = k := by
      intro k z hz
      by_cases hr : InRange τ k
      · rw [MInt.arith_ok hr.1 hr.2] at hz; cases hz; exact ⟨hr, rfl⟩
      · rw [MInt.arith_none hc hr] at hz; cases hz
    obtain ⟨-, hx2⟩ := fits hx
    obtain ⟨hy1, hy2⟩ := fits hy
    have hv := v.inRange
    unfold InRange at hy1 hv
    have r1 : InRange τ (v.val + e.val) := ⟨by omega, by omega⟩
    refine ⟨⟨_, r1.1, r1.2⟩, by rw [MInt.add_def, MInt.arith_ok r1.1 r1.2], ?_⟩
    have e1 : v.val + e.val + d.val = x.val + e.val := by omega
    rw [MInt.add_def]
    show MInt.arith (v.val + e.val + d.val) = _
    rw [e1]; exact hy
  · have hc : Cfg.checked = false := by simpa using hc
    have ok : ∀ k : ℤ, ∃ z : MInt τ, (MInt.arith k : Res (MInt τ)) = .ok z := fun k => ⟨_, MInt.arith_unchecked hc k⟩
    obtain ⟨x', hx'⟩ := ok (v.val + e.val)
    obtain ⟨y', hy'⟩ := ok (x'.val + d.val)
    have r : y' = y := by
      apply residue_inj
      rw [residue_arith hy', residue_arith hy]
      have a1 := residue_arith hx
      have a2 := residue_arith hx'
      simp only [residue] at a1 a2
      push_cast at a1 a2 ⊢
      rw [a1, a2]; ring
    exact ⟨x', hx', by rw [MInt.add_def, hy', r]⟩

theorem addSwaps_wrapping (d e : WInt τ) : AddSwaps d e := by
  intro v x y hx hy
  obtain ⟨x', h1, h2⟩ := (C73_wrapping (τ := τ)).add v e
  obtain ⟨y', h3, h4⟩ := (C73_wrapping (τ := τ)).add x' d
  refine ⟨x', h1, ?_⟩
  rw [h3]
  congr 1
  obtain ⟨x2, k1, k2⟩ := (C73_wrapping (τ := τ)).add v d
  obtain ⟨y2, k3, k4⟩ := (C73_wrapping (τ := τ)).add x e
  rw [hx] at k1; cases k1
  rw [hy] at k3; cases k3
  have : y'.val ≡ y.val [ZMOD 2 ^ τ.bits] := by
    refine h4.trans (((h2.add_right _).trans ?_).trans ((k2.add_right _).symm.trans k4.symm))
    rw [add_right_comm]
  cases y'; cases y
  congr
  exact MInt.eq_of_residue this

/-- a summand of the plain and the weighted fills -/
theorem numCalls_on [RNum T] {c : Call T C} {hist : List (C × Option T)} (h : c ∈ numCalls hist) : ∃ cw ∈ hist, c.on = addAssign (cw.2.getD one) := by
  obtain ⟨⟨x, _ | w⟩, h1, rfl⟩ := List.mem_map.1 h
  · exact ⟨_, h1, rfl⟩
  · exact ⟨_, h1, rfl⟩

theorem numCalls_perm [RNum T] {l l' : List (C × Option T)} (h : l.Perm l') : (numCalls l).Perm (numCalls l') := h.map _

/-- the weights of integer fills are not negative -/
def NonNegWeights (hist : List (C × Option (MInt τ))) : Prop := ∀ cw ∈ hist, ∀ w, cw.2 = some w → 0 ≤ w.val

theorem NonNegWeights.getD {hist : List (C × Option (MInt τ))} (h : NonNegWeights hist) {cw : C × Option (MInt τ)} (hc : cw ∈ hist) : 0 ≤ (cw.2.getD (@one (MInt τ) cfg _)).val := by
  cases hw : cw.2 with
  | none => exact zero_le_one
  | some w => exact h cw hc w hw

theorem numCalls_int_swappable {hist : List (C × Option (MInt τ))} (hw : Cfg.checked = true → NonNegWeights hist) : ∀ a ∈ numCalls hist, ∀ b ∈ numCalls hist, Swappable a b := by
  intro a ha b hb
  obtain ⟨x, x1, x2⟩ := numCalls_on ha
  obtain ⟨y, y1, y2⟩ := numCalls_on hb
  exact AddSwaps.swappable (addSwaps_int fun hc => ⟨(hw hc).getD x1, (hw hc).getD y1⟩) x2 y2

theorem interleaving_nonneg {ts : List (List (C × Option (MInt τ)))} {run : List (C × Option (MInt τ))} (hi : Interleaving ts run)
    (hw : Cfg.checked = true → ∀ t ∈ ts, NonNegWeights t) : Cfg.checked = true → NonNegWeights run := by
  intro hc cw h w hww
  obtain ⟨t, ht, hcw⟩ := List.mem_flatten.1 (hi.perm.mem_iff.1 h)
  exact hw hc t ht cw hcw w hww
end

section
variable [cfg : Cfg] {A : Type} [Axis A] {τ κ : IntTy}

/-- **C92 (integers).** Threads that fill a shared histogram of integers, with weights that are not negative in a build with overflow checks and any weights in one without: whether there is a panic
does not depend on the schedule, and if there is none, the histogram does not either. -/
theorem C92_int (h : VecHistogram A (MInt τ)) {ts : List (List (Axis.Coordinate A × Option (MInt τ)))} (hw : Cfg.checked = true → ∀ t ∈ ts, NonNegWeights t)
    {run : List (Axis.Coordinate A × Option (MInt τ))} (hi : Interleaving ts run) :
    ((h.callAll (numCalls run)).2 = none ↔ (h.callAll (numCalls ts.flatten)).2 = none) ∧
    ((h.callAll (numCalls run)).2 = none → h.callAll (numCalls run) = h.callAll (numCalls ts.flatten)) := by
  obtain ⟨h1, h2⟩ := C92_order h (numCalls_perm hi.perm) (numCalls_int_swappable (interleaving_nonneg hi hw))
  exact ⟨h1, fun hn => (h2 hn).symm⟩

/-- **C92 (integers, sparse).** -/
theorem C92_int_sparse (h : HashHistogram A (MInt τ)) {ts : List (List (Axis.Coordinate A × Option (MInt τ)))} (hw : Cfg.checked = true → ∀ t ∈ ts, NonNegWeights t)
    {run : List (Axis.Coordinate A × Option (MInt τ))} (hi : Interleaving ts run) :
    ((h.callAll (numCalls run)).2 = none ↔ (h.callAll (numCalls ts.flatten)).2 = none) ∧
    ((h.callAll (numCalls run)).2 = none → (h.callAll (numCalls run)).1.axes = (h.callAll (numCalls ts.flatten)).1.axes ∧
      ∀ i, (h.callAll (numCalls run)).1.valueAtIndex i = (h.callAll (numCalls ts.flatten)).1.valueAtIndex i) := by
  obtain ⟨h1, h2⟩ := C92_order_sparse h (numCalls_perm hi.perm) (numCalls_int_swappable (interleaving_nonneg hi hw))
  exact ⟨h1, fun hn => ⟨(h2 hn).1.symm, fun i => ((h2 hn).2 i).symm⟩⟩

/-- **C92 (`Wrapping` numbers).** No schedule panics and all give the same histogram. -/
theorem C92_wrapping (h : VecHistogram A (WInt τ)) {ts : List (List (Axis.Coordinate A × Option (WInt τ)))} (hd : ∀ t ∈ ts, ∀ cw ∈ t, IndexTotal h.axes cw.1)
    {run : List (Axis.Coordinate A × Option (WInt τ))} (hi : Interleaving ts run) :
    (h.callAll (numCalls run)).2 = none ∧ h.callAll (numCalls run) = h.callAll (numCalls ts.flatten) := by
  have hs : ∀ a ∈ numCalls run, ∀ b ∈ numCalls run, Swappable a b := by
    intro a ha b hb
    obtain ⟨x, x1, x2⟩ := numCalls_on ha
    obtain ⟨y, y1, y2⟩ := numCalls_on hb
    exact AddSwaps.swappable (addSwaps_wrapping _ _) x2 y2
  obtain ⟨h1, h2⟩ := C92_order h (numCalls_perm hi.perm) hs
  have hn : (h.callAll (numCalls run)).2 = none := by
    rw [VecHistogram.callAll_none_iff]
    constructor
    · intro c hc
      obtain ⟨cw, h3, rfl⟩ := List.mem_map.1 hc
      obtain ⟨t, ht, h4⟩ := List.mem_flatten.1 (hi.perm.mem_iff.1 h3)
      have := hd t ht cw h4
      rcases cw with ⟨x, _ | w⟩ <;> exact this
    · intro i v hv0
      clear hv0
      generalize hl : callsIn h.axes i (numCalls run) = l
      have hon : ∀ c ∈ l, ∃ w, c.on = addAssign w := by
        intro c hc
        rw [← hl] at hc
        obtain ⟨x, -, x2⟩ := numCalls_on (List.mem_filter.1 hc).1
        exact ⟨_, x2⟩
      clear hl
      induction l generalizing v with
      | nil => rfl
      | cons c l ih =>
        obtain ⟨w, hw⟩ := hon c (by simp)
        obtain ⟨y, hy, -⟩ := (C73_wrapping (τ := τ)).add v w
        rw [fillSeq, hw, addAssign_ok_iff.2 hy]
        exact ih y fun c hc => hon c (by simp [hc])
  exact ⟨hn, (h2 hn).symm⟩

/-! ## `Sum`, `WeightedSum`, `Mean`, `WeightedMean` -/

section
variable {T W O K C V : Type} [RNum T] [RNum W] [RNum K]

theorem onField_ok_iff {σ ρ : Type} {get : σ → ρ} {set : σ → ρ → σ} {f : Upd ρ} {s s' : σ} : Upd.onField get set f s = (s', none) ↔ ∃ x, f (get s) = (x, none) ∧ s' = set s x := by
  unfold Upd.onField
  rcases f (get s) with ⟨x, _ | p⟩
  · simp [eq_comm]
  · simp

theorem andThen_ok_iff {σ : Type} {f g : Upd σ} {s s' : σ} : Upd.andThen f g s = (s', none) ↔ ∃ m, f s = (m, none) ∧ g m = (s', none) := by
  unfold Upd.andThen
  rcases f s with ⟨x, _ | p⟩
  · simp
  · simp

theorem withVal_ok_iff {σ α : Type} {r : Res α} {f : α → Upd σ} {s s' : σ} : Upd.withVal r f s = (s', none) ↔ ∃ a, r = .ok a ∧ f a s = (s', none) := by
  unfold Upd.withVal
  cases r <;> simp

theorem AddSwaps.swappable_sum {d e : T} (h : AddSwaps d e) {a b : Call (Sum T) C} (ha : a.on = Upd.onField Sum.sum (fun _ x => ⟨x⟩) (addAssign d))
    (hb : b.on = Upd.onField Sum.sum (fun _ x => ⟨x⟩) (addAssign e)) : Swappable a b := by
  refine swappable_of fun v x y hx hy => ?_
  rw [ha, onField_ok_iff] at hx
  rw [hb, onField_ok_iff] at hy
  obtain ⟨x, h1, rfl⟩ := hx
  obtain ⟨y, h2, rfl⟩ := hy
  obtain ⟨x', k1, k2⟩ := h _ _ _ (addAssign_ok_iff.1 h1) (addAssign_ok_iff.1 h2)
  exact ⟨⟨x'⟩, by rw [hb, onField_ok_iff]; exact ⟨x', addAssign_ok_iff.2 k1, rfl⟩, by rw [ha, onField_ok_iff]; exact ⟨y, addAssign_ok_iff.2 k2, rfl⟩⟩

/-- the summands of the two fields of a `WeightedSum` -/
def WsAdds (a : Call (WeightedSum T) C) (d : T) (sq : Res T) : Prop :=
  ∀ v x, a.on v = (x, none) ↔ add v.sumw d = .ok x.sumw ∧ ∃ q, sq = .ok q ∧ add v.sumw2 q = .ok x.sumw2

theorem wsAdds_swappable {a b : Call (WeightedSum T) C} {d e : T} {sd se : Res T} (ha : WsAdds a d sd) (hb : WsAdds b e se) (h : AddSwaps d e)
    (h2 : ∀ q r, sd = .ok q → se = .ok r → AddSwaps q r) : Swappable a b := by
  refine swappable_of fun v x y hx hy => ?_
  obtain ⟨h3, q, h4, h5⟩ := (ha v x).1 hx
  obtain ⟨k3, r, k4, k5⟩ := (hb x y).1 hy
  obtain ⟨s, s1, s2⟩ := h _ _ _ h3 k3
  obtain ⟨t, t1, t2⟩ := h2 q r h4 k4 _ _ _ h5 k5
  exact ⟨⟨s, t⟩, (hb _ _).2 ⟨s1, r, k4, t1⟩, (ha _ _).2 ⟨s2, q, h4, t2⟩⟩

theorem wsAdds_fill (c : C) : WsAdds (Call.fill c : Call (WeightedSum T) C) one (.ok one) := by
  intro v x
  rw [show (Call.fill c : Call (WeightedSum T) C).on = Upd.andThen (Upd.onField WeightedSum.sumw (fun s x => { s with sumw := x }) (addAssign one))
    (Upd.onField WeightedSum.sumw2 (fun s x => { s with sumw2 := x }) (addAssign one)) from rfl]
  rw [andThen_ok_iff]
  simp only [onField_ok_iff, addAssign_ok_iff]
  cases x
  constructor
  · rintro ⟨m, ⟨x, h1, rfl⟩, y, h2, h3⟩
    simp only [WeightedSum.mk.injEq] at h3
    obtain ⟨rfl, rfl⟩ := h3
    exact ⟨h1, _, rfl, h2⟩
  · rintro ⟨h1, q, h2, h3⟩
    cases h2
    exact ⟨_, ⟨_, h1, rfl⟩, _, h3, rfl⟩

theorem wsAdds_fillWith (c : C) (w : T) : WsAdds (Call.fillWith c w : Call (WeightedSum T) C) w (mul w w) := by
  intro v x
  rw [show (Call.fillWith c w : Call (WeightedSum T) C).on = Upd.andThen (Upd.onField WeightedSum.sumw (fun s x => { s with sumw := x }) (addAssign w))
    (Upd.withVal (mul w w) fun ww => Upd.onField WeightedSum.sumw2 (fun s x => { s with sumw2 := x }) (addAssign ww)) from rfl]
  rw [andThen_ok_iff]
  simp only [onField_ok_iff, addAssign_ok_iff, withVal_ok_iff]
  cases x
  constructor
  · rintro ⟨m, ⟨x, h1, rfl⟩, q, h0, y, h2, h3⟩
    simp only [WeightedSum.mk.injEq] at h3
    obtain ⟨rfl, rfl⟩ := h3
    exact ⟨h1, _, h0, h2⟩
  · rintro ⟨h1, q, h2, h3⟩
    exact ⟨_, ⟨_, h1, rfl⟩, _, h2, _, h3, rfl⟩

theorem mean_ok_iff (c : C) (d : T) (v x : Mean T O K) : (Call.fillWith c d : Call (Mean T O K) C).on v = (x, none) ↔
    add v.sumw d = .ok x.sumw ∧ (∃ q, mul d d = .ok q ∧ add v.sumw2 q = .ok x.sumw2) ∧ add v.count one = .ok x.count := by
  rw [show (Call.fillWith c d : Call (Mean T O K) C).on = Upd.andThen (Upd.onField Mean.sumw (fun s x => { s with sumw := x }) (addAssign d)) (Upd.andThen
    (Upd.withVal (mul d d) fun d2 => Upd.onField Mean.sumw2 (fun s x => { s with sumw2 := x }) (addAssign d2))
    (Upd.onField Mean.count (fun s x => { s with count := x }) (addAssign one))) from rfl]
  simp only [andThen_ok_iff, onField_ok_iff, addAssign_ok_iff, withVal_ok_iff]
  cases x
  constructor
  · rintro ⟨m, ⟨x, h1, rfl⟩, m', ⟨q, h0, y, h2, rfl⟩, z, h3, h4⟩
    simp only [Mean.mk.injEq] at h4
    obtain ⟨rfl, rfl, rfl⟩ := h4
    exact ⟨h1, ⟨_, h0, h2⟩, h3⟩
  · rintro ⟨h1, ⟨q, h2, h3⟩, h4⟩
    exact ⟨_, ⟨_, h1, rfl⟩, _, ⟨_, h2, _, h3, rfl⟩, _, h4, rfl⟩

theorem mean_swappable {c c' : C} {d e : T} (h : AddSwaps d e) (h2 : ∀ q r, mul d d = .ok q → mul e e = .ok r → AddSwaps q r) (h1 : AddSwaps (one : K) one) :
    Swappable (Call.fillWith c d : Call (Mean T O K) C) (Call.fillWith c' e) := by
  refine swappable_of fun v x y hx hy => ?_
  obtain ⟨a1, ⟨q, a2, a3⟩, a4⟩ := (mean_ok_iff c d v x).1 hx
  obtain ⟨b1, ⟨r, b2, b3⟩, b4⟩ := (mean_ok_iff c' e x y).1 hy
  obtain ⟨s, s1, s2⟩ := h _ _ _ a1 b1
  obtain ⟨t, t1, t2⟩ := h2 q r a2 b2 _ _ _ a3 b3
  obtain ⟨n, n1, n2⟩ := h1 _ _ _ a4 b4
  exact ⟨⟨s, t, n⟩, (mean_ok_iff c' e v _).2 ⟨s1, ⟨r, b2, t1⟩, n1⟩, (mean_ok_iff c d _ y).2 ⟨s2, ⟨q, a2, t2⟩, n2⟩⟩

theorem wmean_ok_iff [RMulBy T W] (c : C) (d : T) (w : W) (v x : WeightedMean T W O K) : (Call.fillWithWeighted c d w : Call (WeightedMean T W O K) C).on v = (x, none) ↔
    (∃ q, RMulBy.mulBy d w = .ok q ∧ add v.sumwt q = .ok x.sumwt) ∧ (∃ q, (do let v2 ← mul d d; RMulBy.mulBy v2 w : Res T) = .ok q ∧ add v.sumwt2 q = .ok x.sumwt2) ∧
    add v.sumw w = .ok x.sumw ∧ (∃ q, mul w w = .ok q ∧ add v.sumw2 q = .ok x.sumw2) ∧ add v.count one = .ok x.count := by
  rw [show (Call.fillWithWeighted c d w : Call (WeightedMean T W O K) C).on =
    Upd.andThen (Upd.withVal (RMulBy.mulBy d w) fun x =>
      Upd.onField WeightedMean.sumwt (fun s x => { s with sumwt := x }) (addAssign x)) (
    Upd.andThen (Upd.withVal (do let v2 ← mul d d; RMulBy.mulBy v2 w) fun x =>
      Upd.onField WeightedMean.sumwt2 (fun s x => { s with sumwt2 := x }) (addAssign x)) (
    Upd.andThen
      (Upd.onField WeightedMean.sumw (fun s x => { s with sumw := x }) (addAssign w)) (
    Upd.andThen (Upd.withVal (mul w w) fun x =>
      Upd.onField WeightedMean.sumw2 (fun s x => { s with sumw2 := x }) (addAssign x))
    (Upd.onField WeightedMean.count (fun s x => { s with count := x }) (addAssign one))))) from rfl]
  simp only [andThen_ok_iff, onField_ok_iff, addAssign_ok_iff, withVal_ok_iff]
  cases x
  constructor
  · rintro ⟨m, ⟨q, h1, x, h2, rfl⟩, m, ⟨q', h3, x', h4, rfl⟩, m, ⟨x2, h5, rfl⟩, m, ⟨q3, h6, x4, h7, rfl⟩, n, h8, h9⟩
    simp only [WeightedMean.mk.injEq] at h9
    obtain ⟨rfl, rfl, rfl, rfl, rfl⟩ := h9
    exact ⟨⟨_, h1, h2⟩, ⟨_, h3, h4⟩, h5, ⟨_, h6, h7⟩, h8⟩
  · rintro ⟨⟨q, h1, h2⟩, ⟨q', h3, h4⟩, h5, ⟨q3, h6, h7⟩, h8⟩
    exact ⟨_, ⟨_, h1, _, h2, rfl⟩, _, ⟨_, h3, _, h4, rfl⟩, _, ⟨_, h5, rfl⟩, _, ⟨_, h6, _, h7, rfl⟩, _, h8, rfl⟩

theorem wmean_swappable [RMulBy T W] {c c' : C} {d e : T} {w u : W} (h : ∀ q r, RMulBy.mulBy d w = .ok q → RMulBy.mulBy e u = .ok r → AddSwaps q r)
    (h2 : ∀ q r, (do let v2 ← mul d d; RMulBy.mulBy v2 w : Res T) = .ok q → (do let v2 ← mul e e; RMulBy.mulBy v2 u : Res T) = .ok r → AddSwaps q r)
    (h3 : AddSwaps w u) (h4 : ∀ q r, mul w w = .ok q → mul u u = .ok r → AddSwaps q r) (h1 : AddSwaps (one : K) one) :
    Swappable (Call.fillWithWeighted c d w : Call (WeightedMean T W O K) C) (Call.fillWithWeighted c' e u) := by
  refine swappable_of fun v x y hx hy => ?_
  obtain ⟨⟨q, a1, a2⟩, ⟨r, a3, a4⟩, a5, ⟨s, a6, a7⟩, a8⟩ := (wmean_ok_iff c d w v x).1 hx
  obtain ⟨⟨q', b1, b2⟩, ⟨r', b3, b4⟩, b5, ⟨s', b6, b7⟩, b8⟩ := (wmean_ok_iff c' e u x y).1 hy
  obtain ⟨_, p1, p2⟩ := h q q' a1 b1 _ _ _ a2 b2
  obtain ⟨_, p3, p4⟩ := h2 r r' a3 b3 _ _ _ a4 b4
  obtain ⟨_, p5, p6⟩ := h3 _ _ _ a5 b5
  obtain ⟨_, p7, p8⟩ := h4 s s' a6 b6 _ _ _ a7 b7
  obtain ⟨_, p9, p10⟩ := h1 _ _ _ a8 b8
  exact ⟨⟨_, _, _, _, _⟩, (wmean_ok_iff c' e u v _).2 ⟨⟨_, b1, p1⟩, ⟨_, b3, p3⟩, p5, ⟨_, b6, p7⟩, p9⟩,
    (wmean_ok_iff c d w _ y).2 ⟨⟨_, a1, p2⟩, ⟨_, a3, p4⟩, p6, ⟨_, a6, p8⟩, p10⟩⟩
end

theorem int_mul_nonneg (hc : Cfg.checked = true) {a b q : MInt τ} (h : @mul (MInt τ) cfg _ a b = .ok q) (h0 : 0 ≤ a.val * b.val) : 0 ≤ q.val := by
  rw [MInt.mul_def] at h
  by_cases hr : InRange τ (a.val * b.val)
  · rw [MInt.arith_ok hr.1 hr.2] at h; cases h; exact h0
  · rw [MInt.arith_none hc hr] at h; cases h

theorem addSwaps_squares {d e : MInt τ} : ∀ q r : MInt τ, @mul (MInt τ) cfg _ d d = .ok q → @mul (MInt τ) cfg _ e e = .ok r → AddSwaps q r := fun _ _ hq hr =>
  addSwaps_int fun hc => ⟨int_mul_nonneg hc hq (mul_self_nonneg _), int_mul_nonneg hc hr (mul_self_nonneg _)⟩

theorem addSwaps_one : AddSwaps (@one (MInt κ) cfg _) (@one (MInt κ) cfg _) := addSwaps_int fun _ => ⟨zero_le_one, zero_le_one⟩

/-- **C92 (`WeightedSum`).** The same for the sums and the sums of squares of integer weights. -/
theorem C92_weighted_sum (h : VecHistogram A (WeightedSum (MInt τ))) {ts : List (List (Axis.Coordinate A × Option (MInt τ)))} (hw : Cfg.checked = true → ∀ t ∈ ts, NonNegWeights t)
    {run : List (Axis.Coordinate A × Option (MInt τ))} (hi : Interleaving ts run) :
    ((h.callAll (weightedSumCalls run)).2 = none ↔ (h.callAll (weightedSumCalls ts.flatten)).2 = none) ∧
    ((h.callAll (weightedSumCalls run)).2 = none → h.callAll (weightedSumCalls run) = h.callAll (weightedSumCalls ts.flatten)) := by
  have hnn := interleaving_nonneg hi hw
  have one' : (Cfg.checked = true → 0 ≤ (@one (MInt τ) cfg _).val) := fun _ => zero_le_one
  have hs : ∀ a ∈ weightedSumCalls run, ∀ b ∈ weightedSumCalls run, Swappable a b := by
    intro a ha b hb
    have key : ∀ a ∈ weightedSumCalls run, ∃ d sq, WsAdds a d sq ∧ (Cfg.checked = true → 0 ≤ d.val) ∧ ∀ q, sq = .ok q → Cfg.checked = true → 0 ≤ q.val := by
      intro a ha
      obtain ⟨⟨x, _ | w⟩, h1, rfl⟩ := List.mem_map.1 ha
      · exact ⟨_, _, wsAdds_fill x, one', fun q hq => by cases hq; exact one'⟩
      · exact ⟨_, _, wsAdds_fillWith x w, fun hc => hnn hc _ h1 w rfl, fun q hq hc => int_mul_nonneg hc hq (mul_self_nonneg _)⟩
    obtain ⟨d, sq, h1, h2, h3⟩ := key a ha
    obtain ⟨e, sr, k1, k2, k3⟩ := key b hb
    exact wsAdds_swappable h1 k1 (addSwaps_int fun hc => ⟨h2 hc, k2 hc⟩) fun q r hq hr => addSwaps_int fun hc => ⟨h3 q hq hc, k3 r hr hc⟩
  obtain ⟨h1, h2⟩ := C92_order h (hi.perm.map _) hs
  exact ⟨h1, fun hn => (h2 hn).symm⟩

/-- **C92 (`Mean`).** The same for the means of integer samples. -/
theorem C92_mean {O : Type} (h : VecHistogram A (Mean (MInt τ) O (MInt κ))) {ts : List (List (Axis.Coordinate A × MInt τ))}
    (hw : Cfg.checked = true → ∀ t ∈ ts, ∀ cx ∈ t, 0 ≤ cx.2.val) {run : List (Axis.Coordinate A × MInt τ)} (hi : Interleaving ts run) :
    ((h.callAll (run.map fun cx => .fillWith cx.1 cx.2)).2 = none ↔ (h.callAll (ts.flatten.map fun cx => .fillWith cx.1 cx.2)).2 = none) ∧
    ((h.callAll (run.map fun cx => .fillWith cx.1 cx.2)).2 = none →
      h.callAll (run.map fun cx => .fillWith cx.1 cx.2) = h.callAll (ts.flatten.map fun cx => .fillWith cx.1 cx.2)) := by
  have hnn : ∀ cx ∈ run, Cfg.checked = true → 0 ≤ cx.2.val := by
    intro cx hc hch
    obtain ⟨t, ht, h1⟩ := List.mem_flatten.1 (hi.perm.mem_iff.1 hc)
    exact hw hch t ht cx h1
  obtain ⟨h1, h2⟩ := C92_order h (hi.perm.map fun cx => Call.fillWith cx.1 cx.2) (by
    intro a ha b hb
    obtain ⟨x, x1, rfl⟩ := List.mem_map.1 ha
    obtain ⟨y, y1, rfl⟩ := List.mem_map.1 hb
    exact mean_swappable (addSwaps_int fun hc => ⟨hnn x x1 hc, hnn y y1 hc⟩) addSwaps_squares addSwaps_one)
  exact ⟨h1, fun hn => (h2 hn).symm⟩

/-- **C92 (`WeightedMean`).** The same for the weighted means of integer samples. -/
theorem C92_weighted_mean {O : Type} (h : VecHistogram A (WeightedMean (MInt τ) (MInt τ) O (MInt κ))) {ts : List (List (Axis.Coordinate A × MInt τ × MInt τ))}
    (hw : Cfg.checked = true → ∀ t ∈ ts, ∀ cx ∈ t, 0 ≤ cx.2.1.val ∧ 0 ≤ cx.2.2.val) {run : List (Axis.Coordinate A × MInt τ × MInt τ)} (hi : Interleaving ts run) :
    ((h.callAll (run.map fun cx => .fillWithWeighted cx.1 cx.2.1 cx.2.2)).2 = none ↔ (h.callAll (ts.flatten.map fun cx => .fillWithWeighted cx.1 cx.2.1 cx.2.2)).2 = none) ∧
    ((h.callAll (run.map fun cx => .fillWithWeighted cx.1 cx.2.1 cx.2.2)).2 = none →
      h.callAll (run.map fun cx => .fillWithWeighted cx.1 cx.2.1 cx.2.2) = h.callAll (ts.flatten.map fun cx => .fillWithWeighted cx.1 cx.2.1 cx.2.2)) := by
  have hnn : ∀ cx ∈ run, Cfg.checked = true → 0 ≤ cx.2.1.val ∧ 0 ≤ cx.2.2.val := by
    intro cx hc hch
    obtain ⟨t, ht, h1⟩ := List.mem_flatten.1 (hi.perm.mem_iff.1 hc)
    exact hw hch t ht cx h1
  have prod : ∀ {a b q : MInt τ}, (Cfg.checked = true → 0 ≤ a.val ∧ 0 ≤ b.val) → (RMulBy.mulBy a b : Res (MInt τ)) = .ok q → Cfg.checked = true → 0 ≤ q.val :=
    fun h0 hq hc => int_mul_nonneg hc hq (mul_nonneg (h0 hc).1 (h0 hc).2)
  have prod2 : ∀ {a b q : MInt τ}, (Cfg.checked = true → 0 ≤ b.val) → (do let v2 ← @mul (MInt τ) cfg _ a a; RMulBy.mulBy v2 b : Res (MInt τ)) = .ok q → Cfg.checked = true → 0 ≤ q.val := by
    intro a b q h0 hq hc
    rcases hm : (@mul (MInt τ) cfg _ a a : Res (MInt τ)) with p | v2
    · rw [hm] at hq; cases hq
    · rw [hm] at hq
      exact int_mul_nonneg hc hq (mul_nonneg (int_mul_nonneg hc hm (mul_self_nonneg _)) (h0 hc))
  obtain ⟨h1, h2⟩ := C92_order h (hi.perm.map fun cx => Call.fillWithWeighted cx.1 cx.2.1 cx.2.2) (by
    intro a ha b hb
    obtain ⟨x, x1, rfl⟩ := List.mem_map.1 ha
    obtain ⟨y, y1, rfl⟩ := List.mem_map.1 hb
    exact wmean_swappable (fun q r hq hr => addSwaps_int fun hc => ⟨prod (hnn x x1) hq hc, prod (hnn y y1) hr hc⟩)
      (fun q r hq hr => addSwaps_int fun hc => ⟨prod2 (fun hc => (hnn x x1 hc).2) hq hc, prod2 (fun hc => (hnn y y1 hc).2) hr hc⟩)
      (addSwaps_int fun hc => ⟨(hnn x x1 hc).2, (hnn y y1 hc).2⟩) addSwaps_squares addSwaps_one)
  exact ⟨h1, fun hn => (h2 hn).symm⟩

/-! ## Exact contents -/

variable {axes : A} {n : Nat} {covers : Axis.Interval A → Axis.Coordinate A → Prop} {dom : Axis.Coordinate A → Prop}

open Classical in
/-- **C92 (counts).** Threads that count into a shared histogram: with fewer coordinates in all than the largest number, no schedule panics, and every schedule ends with the exact count in every bin. -/
theorem C92_count (hf : FaithfulAxis axes n covers dom) {h : VecHistogram A (MInt τ)} (hnew : VecHistogram.new axes = .ok h)
    {ts : List (List (Axis.Coordinate A))} (hd : ∀ t ∈ ts, ∀ c ∈ t, dom c) (hfit : ((ts.map List.length).sum : ℤ) ≤ τ.max) {run : List (Axis.Coordinate A)} (hi : Interleaving ts run) :
    ∃ h' items, h.callAll (run.map .fill) = (h', none) ∧ h'.iter = .ok items ∧ items.length = n ∧
      ∀ i it, items[i]? = some it → it.index = i ∧ Axis.bin axes i = .ok (some it.bin) ∧
        it.value.val = (((ts.map fun t => t.countP fun c => covers it.bin c).sum : ℕ) : ℤ) := by
  have hm : ∀ c ∈ run, dom c := fun c hc => by
    obtain ⟨t, ht, h1⟩ := List.mem_flatten.1 (hi.perm.mem_iff.1 hc)
    exact hd t ht c h1
  obtain ⟨h', items, h1, h2, h3, h4⟩ := C52_count_int hf hnew run hm (by rw [hi.perm.length_eq, List.length_flatten]; exact hfit)
  refine ⟨h', items, h1, h2, h3, fun i it hit => ?_⟩
  obtain ⟨k1, k2, k3⟩ := h4 i it hit
  refine ⟨k1, k2, ?_⟩
  rw [k3, hi.perm.countP_eq, List.countP_flatten]

open Classical in
/-- **C92 (a thread panics).** In a build with overflow checks, where the first panic poisons the lock and stops all threads, and whatever the weights: the histogram under the lock holds in each bin
the exact sum of the weights of an interleaving of beginnings of the threads, and the fill that panicked is the next one of one of the threads, or there was no panic and the threads are done. -/
theorem C92_poisoned (hc : Cfg.checked = true) (hf : FaithfulAxis axes n covers dom) {h : VecHistogram A (MInt τ)} (hnew : VecHistogram.new axes = .ok h)
    {ts : List (List (Axis.Coordinate A × Option (MInt τ)))} (hd : ∀ t ∈ ts, ∀ cw ∈ t, dom cw.1) {run : List (Axis.Coordinate A × Option (MInt τ))} (hi : Interleaving ts run) :
    ∃ h' p pre post ps qs items, h.callAll (numCalls run) = (h', p) ∧ run = pre ++ post ∧ ps.length = qs.length ∧ ts = List.zipWith (· ++ ·) ps qs ∧
      Interleaving ps pre ∧ Interleaving qs post ∧ h'.iter = .ok items ∧ items.length = n ∧
      (∀ i it, items[i]? = some it → it.index = i ∧ Axis.bin axes i = .ok (some it.bin) ∧ it.value.val = (ps.map fun t => totalIn MInt.val covers it.bin t).sum) ∧
      (p = none ∧ post = [] ∨ p = some .overflow ∧ ∃ (k : ℕ) (cw : Axis.Coordinate A × Option (MInt τ)) (rest : List (Axis.Coordinate A × Option (MInt τ))), qs[k]? = some (cw :: rest) ∧ ∃ it ∈ items, covers it.bin cw.1 ∧
        ¬ InRange τ (it.value.val + weightOf MInt.val cw)) := by
  have hm : ∀ cw ∈ run, dom cw.1 := fun c hc => by
    obtain ⟨t, ht, h1⟩ := List.mem_flatten.1 (hi.perm.mem_iff.1 hc)
    exact hd t ht c h1
  obtain ⟨h', p, pre, items, h1, ⟨post, rfl⟩, h3, h4, h5, h6, h7⟩ := C73_checked hc hf hnew run hm
  obtain ⟨ps, qs, k1, k2, k3, k4⟩ := C92_any_moment hi
  refine ⟨h', p, pre, post, ps, qs, items, h1, rfl, k1, k2, k3, k4, h3, h4, fun i it hit => ?_, ?_⟩
  · obtain ⟨a, b, c⟩ := h5 i it hit
    refine ⟨a, b, ?_⟩
    rw [c]
    have hp := ((k3.perm.filter (fun cw => decide (covers it.bin cw.1))).map (weightOf MInt.val)).sum_eq
    show (List.map _ _).sum = _
    rw [hp, List.filter_flatten, List.map_flatten, List.sum_flatten, List.map_map, List.map_map]
    rfl
  · rcases h7 with ⟨rfl, h8⟩ | ⟨rfl, cw, ⟨rest, h8⟩, it, h9, h10, h11⟩
    · left; exact ⟨rfl, by simpa using h8⟩
    · right
      refine ⟨rfl, ?_⟩
      have : post = cw :: rest := by simpa using h8.symm
      subst this
      cases k4 with
      | @step _ k _ r _ hk hr =>
        refine ⟨k, cw, r, hk, it, h9, h10, fun hr => h11 ?_⟩
        obtain ⟨i, hi⟩ := List.mem_iff_getElem?.1 h9
        have e := (h5 i it hi).2.2
        have : totalIn MInt.val covers it.bin (pre ++ [cw]) = it.value.val + weightOf MInt.val cw := by
          rw [e]
          unfold totalIn
          rw [List.filter_append, List.map_append, List.sum_append]
          simp [h10]
        rw [this]
        exact hr

open Classical in
/-- **C92 (floats).** Threads that fill a shared histogram of floats with finite weights: no schedule panics, and the content of a bin in two schedules differs by at most twice the rounding error bound
(`k` fills reach the bin). -/
theorem C92_float {F : FFmt} (hf : FaithfulAxis axes n covers dom) {h : VecHistogram A (Flt F)} (hnew : VecHistogram.new axes = .ok h)
    {ts : List (List (Axis.Coordinate A × Option (Flt F)))} (hd : ∀ t ∈ ts, ∀ cw ∈ t, dom cw.1) (hfin : ∀ t ∈ ts, ∀ cw ∈ t, ∀ w, cw.2 = some w → w.isFin)
    (hr : (1 + F.u) ^ ts.flatten.length * (ts.flatten.map fun cw => |fltWeight cw|).sum ≤ F.maxFin)
    {run run' : List (Axis.Coordinate A × Option (Flt F))} (hi : Interleaving ts run) (hi' : Interleaving ts run') :
    ∃ (m m' : VecHistogram A (Flt F)) (items items' : List (Item (Axis.Interval A) (Flt F))), h.callAll (numCalls run) = (m, none) ∧ h.callAll (numCalls run') = (m', none) ∧ m.iter = .ok items ∧ m'.iter = .ok items' ∧ items.length = n ∧ items'.length = n ∧
      ∀ (i : ℕ) (it it' : Item (Axis.Interval A) (Flt F)), items[i]? = some it → items'[i]? = some it' → it.bin = it'.bin ∧ it.value.isFin ∧ it'.value.isFin ∧
        |it.value.val - it'.value.val| ≤
          2 * (((1 + F.u) ^ (ts.flatten.countP (fun cw => covers it.bin cw.1) - 1) - 1) * ((ts.flatten.filter fun cw => covers it.bin cw.1).map fun cw => |fltWeight cw|).sum) := by
  have key : ∀ {run}, Interleaving ts run → (∀ cw ∈ run, dom cw.1) ∧ (∀ cw ∈ run, ∀ w, cw.2 = some w → w.isFin) ∧ (1 + F.u) ^ run.length * (run.map fun cw => |fltWeight cw|).sum ≤ F.maxFin := by
    intro run hi
    refine ⟨fun cw hc => ?_, fun cw hc => ?_, ?_⟩
    · obtain ⟨t, ht, h1⟩ := List.mem_flatten.1 (hi.perm.mem_iff.1 hc)
      exact hd t ht cw h1
    · obtain ⟨t, ht, h1⟩ := List.mem_flatten.1 (hi.perm.mem_iff.1 hc)
      exact hfin t ht cw h1
    · rw [hi.perm.length_eq, (hi.perm.map _).sum_eq]; exact hr
  obtain ⟨a1, a2, a3⟩ := key hi
  obtain ⟨b1, b2, b3⟩ := key hi'
  obtain ⟨m, items, h1, h2, h3, h4⟩ := C57_dense hf hnew run a1 a2 a3
  obtain ⟨m', items', k1, k2, k3, k4⟩ := C57_dense hf hnew run' b1 b2 b3
  refine ⟨m, m', items, items', h1, k1, h2, k2, h3, k3, fun i it it' hit hit' => ?_⟩
  obtain ⟨-, c1, c2, c3⟩ := h4 i it hit
  obtain ⟨-, d1, d2, d3⟩ := k4 i it' hit'
  have hb : it.bin = it'.bin := by rw [c1] at d1; simpa using d1
  refine ⟨hb, c2, d2, ?_⟩
  rw [← hb] at d3
  have p := hi.perm
  have p' := hi'.perm
  rw [p.countP_eq, ((p.filter fun cw => decide (covers it.bin cw.1)).map fltWeight).sum_eq, ((p.filter fun cw => decide (covers it.bin cw.1)).map fun cw => |fltWeight cw|).sum_eq] at c3
  rw [p'.countP_eq, ((p'.filter fun cw => decide (covers it.bin cw.1)).map fltWeight).sum_eq, ((p'.filter fun cw => decide (covers it.bin cw.1)).map fun cw => |fltWeight cw|).sum_eq] at d3
  have := abs_sub_le it.value.val ((ts.flatten.filter fun cw => covers it.bin cw.1).map fltWeight).sum it'.value.val
  have e := abs_sub_comm ((ts.flatten.filter fun cw => covers it.bin cw.1).map fltWeight).sum it'.value.val
  rw [e] at this
  linarith

/-- **C92 (floats, exact).** If the weights are multiples of `2^e`, each bin whose weights are not too large in total ends with their exact sum in every schedule. -/
theorem C92_float_exact {F : FFmt} {e : ℤ} (he : F.qmin ≤ e ∧ e + F.p ≤ F.emax) (hf : FaithfulAxis axes n covers dom) {h : VecHistogram A (Flt F)} (hnew : VecHistogram.new axes = .ok h)
    {ts : List (List (Axis.Coordinate A × Option (Flt F)))} (hd : ∀ t ∈ ts, ∀ cw ∈ t, dom cw.1) (hfin : ∀ t ∈ ts, ∀ cw ∈ t, ∀ w, cw.2 = some w → w.isFin)
    (hg : ∀ t ∈ ts, ∀ cw ∈ t, OnGrid e (fltWeight cw)) {run : List (Axis.Coordinate A × Option (Flt F))} (hi : Interleaving ts run) :
    ∃ h' items, h.callAll (numCalls run) = (h', none) ∧ h'.iter = .ok items ∧ items.length = n ∧
      ∀ i it, items[i]? = some it → it.index = i ∧ Axis.bin axes i = .ok (some it.bin) ∧
        ((ts.map fun t => fltAbsIn covers it.bin t).sum ≤ (2 : ℚ) ^ (e + F.p) → it.value.isFin ∧ it.value.val = (ts.map fun t => fltTotalIn covers it.bin t).sum) := by
  classical
  have mem : ∀ cw ∈ run, ∃ t ∈ ts, cw ∈ t := fun cw hc => List.mem_flatten.1 (hi.perm.mem_iff.1 hc)
  obtain ⟨h', items, h1, h2, h3, h4⟩ := C74_dense he hf hnew run (fun cw hc => by obtain ⟨t, ht, h1⟩ := mem cw hc; exact hd t ht cw h1)
    (fun cw hc => by obtain ⟨t, ht, h1⟩ := mem cw hc; exact hfin t ht cw h1) (fun cw hc => by obtain ⟨t, ht, h1⟩ := mem cw hc; exact hg t ht cw h1)
  refine ⟨h', items, h1, h2, h3, fun i it hit => ?_⟩
  obtain ⟨k1, k2, k3⟩ := h4 i it hit
  refine ⟨k1, k2, ?_⟩
  have e1 : fltAbsIn covers it.bin run = (ts.map fun t => fltAbsIn covers it.bin t).sum := by
    unfold fltAbsIn
    rw [((hi.perm.filter _).map _).sum_eq, List.filter_flatten, List.map_flatten, List.sum_flatten, List.map_map, List.map_map]
    rfl
  have e2 : fltTotalIn covers it.bin run = (ts.map fun t => fltTotalIn covers it.bin t).sum := by
    unfold fltTotalIn
    rw [((hi.perm.filter _).map _).sum_eq, List.filter_flatten, List.map_flatten, List.sum_flatten, List.map_map, List.map_map]
    rfl
  rw [← e1, ← e2]
  exact k3
end

/-! ## The limits -/

section
attribute [local instance] dbg64

/-- Negative weights in a build with overflow checks: threads that fill `100, -100` and `100` into one bin of `i8` may or may not panic. -/
theorem C92_counterexample_signs :
    ∃ (h : VecHistogram (CategoryNoFlow String) (MInt .i8)) (ts : List (List (String × Option (MInt .i8)))) (run run' : List (String × Option (MInt .i8))),
      VecHistogram.new (CategoryNoFlow.new ["a"]) = .ok h ∧ Interleaving ts run ∧ Interleaving ts run' ∧ (h.callAll (numCalls run)).2 = none ∧ (h.callAll (numCalls run')).2 = some .overflow := by
  refine ⟨⟨CategoryNoFlow.new ["a"], [.lit 0]⟩, [[("a", some (.lit 100)), ("a", some (.lit (-100)))], [("a", some (.lit 100))]],
    [("a", some (.lit 100)), ("a", some (.lit (-100))), ("a", some (.lit 100))], [("a", some (.lit 100)), ("a", some (.lit 100)), ("a", some (.lit (-100)))], rfl, ?_, ?_, by decide +kernel, by decide +kernel⟩
  · exact .sequential _
  · exact .step (k := 0) rfl (.step (k := 1) rfl (.step (k := 0) rfl (.done (by simp))))

/-- Floats: threads that fill `2^53` and `1, 1` into one bin: the content depends on the schedule. -/
theorem C92_counterexample_float :
    ∃ (h : VecHistogram (CategoryNoFlow String) F64) (ts : List (List (String × Option F64))) (run run' : List (String × Option F64)),
      VecHistogram.new (CategoryNoFlow.new ["a"]) = .ok h ∧ Interleaving ts run ∧ Interleaving ts run' ∧
      (h.callAll (numCalls run)).1.value "a" = .ok (some (f64 (2 ^ 53))) ∧ (h.callAll (numCalls run')).1.value "a" = .ok (some (f64 (2 ^ 53 + 2))) := by
  refine ⟨_, [[("a", some (f64 (2 ^ 53)))], [("a", some (f64 1)), ("a", some (f64 1))]],
    [("a", some (f64 (2 ^ 53))), ("a", some (f64 1)), ("a", some (f64 1))], [("a", some (f64 1)), ("a", some (f64 1)), ("a", some (f64 (2 ^ 53)))], rfl, ?_, ?_, ?_, ?_⟩
  · exact .sequential _
  · exact .step (k := 1) rfl (.step (k := 1) rfl (.step (k := 0) rfl (.done (by simp))))
  · decide +kernel
  · decide +kernel
end
end NdHist
