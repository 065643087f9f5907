import Verif.SpecBatch
import Verif.Props.NewValue
import Verif.Props.WrapOps
/-!
# C90: one fill in place of several
-/
namespace NdHist
open RNum
section
variable {A V : Type} [Cfg] [Axis A]

theorem VecHistogram.callAll_append (h : VecHistogram A V) (l l' : List (Call V (Axis.Coordinate A))) :
    h.callAll (l ++ l') = match h.callAll l with | (h', none) => h'.callAll l' | (h', some p) => (h', some p) := by
  induction l generalizing h with
  | nil => rfl
  | cons c cs ih =>
    simp only [List.cons_append, VecHistogram.callAll]
    rcases h.call c with ⟨h', _ | p⟩
    · exact ih h'
    · rfl

theorem HashHistogram.callAll_append [RDefault V] (h : HashHistogram A V) (l l' : List (Call V (Axis.Coordinate A))) :
    h.callAll (l ++ l') = match h.callAll l with | (h', none) => h'.callAll l' | (h', some p) => (h', some p) := by
  induction l generalizing h with
  | nil => rfl
  | cons c cs ih =>
    simp only [List.cons_append, HashHistogram.callAll]
    rcases h.call c with ⟨h', _ | p⟩
    · exact ih h'
    · rfl

omit [Cfg] in
theorem fillSeq_append {C : Type} (l l' : List (Call V C)) (v : V) :
    fillSeq (l ++ l') v = match fillSeq l v with | (v', none) => fillSeq l' v' | (v', some p) => (v', some p) := by
  induction l generalizing v with
  | nil => rfl
  | cons c cs ih =>
    simp only [List.cons_append, fillSeq]
    rcases c.on v with ⟨v', _ | p⟩
    · exact ih v'
    · rfl

/-- all calls at one coordinate, dense -/
theorem callAll_here {c : Axis.Coordinate A} (fs : List (Call V (Axis.Coordinate A))) (hc : ∀ f ∈ fs, f.coord = c) (h : VecHistogram A V) :
    h.callAll fs = match fs with
      | [] => (h, none)
      | _ => match Axis.index h.axes c with
        | .error p => (h, some p)
        | .ok none => (h, none)
        | .ok (some i) => match h.valueAtIndex i with
          | none => (h, none)
          | some v => ({ h with values := h.values.set i (fillSeq fs v).1 }, (fillSeq fs v).2) := by
  induction fs generalizing h with
  | nil => rfl
  | cons f fs ih =>
    have hf : f.coord = c := hc f (by simp)
    have ih := fun h => ih (fun g hg => hc g (by simp [hg])) h
    rw [VecHistogram.callAll]
    rcases hi : Axis.index h.axes c with p | _ | i
    · rw [VecHistogram.call_error (hf ▸ hi)]
    · rw [VecHistogram.call_none (hf ▸ hi)]
      simp only [ih, hi]
      cases fs <;> rfl
    · cases hv : h.valueAtIndex i with
      | none =>
        rw [VecHistogram.call_out (hf ▸ hi) hv]
        simp only [ih, hi, hv]
        cases fs <;> rfl
      | some v =>
        have hv' : h.values[i]? = some v := hv
        have hlt : i < h.values.length := (List.getElem?_eq_some_iff.1 hv').1
        rw [VecHistogram.call_some (hf ▸ hi) hv]
        have e : h.values.modify i (fun v => (f.on v).1) = h.values.set i (f.on v).1 := by
          rw [List.modify_eq_set_getElem? , hv']; rfl
        rw [e]
        simp only [hv, fillSeq]
        rcases hfv : f.on v with ⟨v', _ | p⟩
        · simp only
          rw [ih]
          cases fs with
          | nil => rfl
          | cons g gs =>
            have e2 : VecHistogram.valueAtIndex { h with values := h.values.set i v' } i = some v' := by
              show (h.values.set i v')[i]? = some v'
              rw [List.getElem?_set_self hlt]
            simp only [hi, e2, List.set_set]
        · rfl

omit [Cfg] in
theorem HMap.insert_insert {K W : Type} [DecidableEq K] (m : HMap K W) (k : K) (v w : W) : (m.insert k v).insert k w = m.insert k w := by
  have key : ∀ l : List (K × W), HMap.put k w (HMap.put k v l) = HMap.put k w l := by
    intro l
    induction l with
    | nil => simp [HMap.put]
    | cons kv l ih =>
      obtain ⟨k', v'⟩ := kv
      by_cases hk : k' = k <;> simp [HMap.put, hk, ih]
  unfold HMap.insert
  simp only [key]

/-- all calls at one coordinate, sparse -/
theorem callAll_here_sparse [RDefault V] {c : Axis.Coordinate A} (fs : List (Call V (Axis.Coordinate A))) (hc : ∀ f ∈ fs, f.coord = c) (h : HashHistogram A V) :
    h.callAll fs = match fs with
      | [] => (h, none)
      | _ => match Axis.index h.axes c with
        | .error p => (h, some p)
        | .ok none => (h, none)
        | .ok (some i) => ({ h with values := h.values.insert i (fillSeq fs ((h.values.get i).getD RDefault.dflt)).1 }, (fillSeq fs ((h.values.get i).getD RDefault.dflt)).2) := by
  induction fs generalizing h with
  | nil => rfl
  | cons f fs ih =>
    have hf : f.coord = c := hc f (by simp)
    have ih := fun h => ih (fun g hg => hc g (by simp [hg])) h
    rw [HashHistogram.callAll, HashHistogram.call_eq, hf]
    rcases hi : Axis.index h.axes c with p | _ | i
    · rfl
    · simp only [ih, hi]
      cases fs <;> rfl
    · simp only [HashHistogram.entryUpd, fillSeq]
      rcases hfv : f.on ((h.values.get i).getD RDefault.dflt) with ⟨v', _ | p⟩
      · simp only
        rw [ih]
        cases fs with
        | nil => rfl
        | cons g gs => simp only [hi, HMap.get_insert_self, Option.getD_some, HMap.insert_insert]
      · rfl

/-- C90, dense: a history in which one call stands for several at a time panics exactly if the history of all the calls does, and otherwise leaves the same histogram - whatever the axis and the
histogram. -/
theorem C90_batch (batches : List (Call V (Axis.Coordinate A) × List (Call V (Axis.Coordinate A)))) (hb : ∀ b ∈ batches, StandsFor b.1 b.2) (h : VecHistogram A V) :
    ((h.callAll (batches.map (·.1))).2 = none ↔ (h.callAll (batches.flatMap (·.2))).2 = none) ∧
    ((h.callAll (batches.map (·.1))).2 = none → h.callAll (batches.map (·.1)) = h.callAll (batches.flatMap (·.2))) := by
  induction batches generalizing h with
  | nil => exact ⟨Iff.rfl, fun _ => rfl⟩
  | cons b bs ih =>
    obtain ⟨g, fs⟩ := b
    have hs := hb (g, fs) (by simp)
    have ih := ih (fun b hb' => hb b (by simp [hb']))
    have one : ((h.call g).2 = none ↔ (h.callAll fs).2 = none) ∧ ((h.call g).2 = none → h.call g = h.callAll fs) := by
      have e : h.call g = h.callAll [g] := by
        simp only [VecHistogram.callAll]
        rcases h.call g with ⟨h', _ | p⟩ <;> rfl
      rw [e, callAll_here [g] (c := g.coord) (by simp), callAll_here fs hs.coord]
      have e1 : ∀ v, fillSeq [g] v = g.on v := by
        intro v
        simp only [fillSeq]
        rcases g.on v with ⟨v', _ | p⟩ <;> rfl
      obtain ⟨f, fs', rfl⟩ := List.exists_cons_of_ne_nil hs.some
      simp only [e1]
      rcases hi : Axis.index h.axes g.coord with p | _ | i
      · simp
      · simp
      · cases hv : h.valueAtIndex i with
        | none => simp [hv]
        | some v => simp only [hv]; exact ⟨hs.ok v, fun hn => by simp only [hs.same v hn]⟩
    simp only [List.map_cons, List.flatMap_cons, VecHistogram.callAll_append]
    rw [VecHistogram.callAll]
    rcases hg : h.call g with ⟨h', _ | p⟩
    · rw [← one.2 (by rw [hg]), hg]
      exact ih h'
    · have hp : (h.callAll fs).2 ≠ none := fun hn => by
        have := one.1.2 hn
        rw [hg] at this
        cases this
      rcases hf : h.callAll fs with ⟨h'', _ | q⟩
      · rw [hf] at hp; exact absurd rfl hp
      · simp

/-- C90, sparse: likewise. -/
theorem C90_batch_sparse [RDefault V] (batches : List (Call V (Axis.Coordinate A) × List (Call V (Axis.Coordinate A)))) (hb : ∀ b ∈ batches, StandsFor b.1 b.2) (h : HashHistogram A V) :
    ((h.callAll (batches.map (·.1))).2 = none ↔ (h.callAll (batches.flatMap (·.2))).2 = none) ∧
    ((h.callAll (batches.map (·.1))).2 = none → h.callAll (batches.map (·.1)) = h.callAll (batches.flatMap (·.2))) := by
  induction batches generalizing h with
  | nil => exact ⟨Iff.rfl, fun _ => rfl⟩
  | cons b bs ih =>
    obtain ⟨g, fs⟩ := b
    have hs := hb (g, fs) (by simp)
    have ih := ih (fun b hb' => hb b (by simp [hb']))
    have one : ((h.call g).2 = none ↔ (h.callAll fs).2 = none) ∧ ((h.call g).2 = none → h.call g = h.callAll fs) := by
      have e : h.call g = h.callAll [g] := by
        simp only [HashHistogram.callAll]
        rcases h.call g with ⟨h', _ | p⟩ <;> rfl
      rw [e, callAll_here_sparse [g] (c := g.coord) (by simp), callAll_here_sparse fs hs.coord]
      have e1 : ∀ v, fillSeq [g] v = g.on v := by
        intro v
        simp only [fillSeq]
        rcases g.on v with ⟨v', _ | p⟩ <;> rfl
      obtain ⟨f, fs', rfl⟩ := List.exists_cons_of_ne_nil hs.some
      simp only [e1]
      rcases hi : Axis.index h.axes g.coord with p | _ | i
      · simp
      · simp
      · exact ⟨hs.ok _, fun hn => by simp only [hs.same _ hn]⟩
    simp only [List.map_cons, List.flatMap_cons, HashHistogram.callAll_append]
    rw [HashHistogram.callAll]
    rcases hg : h.call g with ⟨h', _ | p⟩
    · rw [← one.2 (by rw [hg]), hg]
      exact ih h'
    · have hp : (h.callAll fs).2 ≠ none := fun hn => by
        have := one.1.2 hn
        rw [hg] at this
        cases this
      rcases hf : h.callAll fs with ⟨h'', _ | q⟩
      · rw [hf] at hp; exact absurd rfl hp
      · simp
end

section
variable [cfg : Cfg] {τ : IntTy} {C : Type}

theorem addAssign_eq {T : Type} [RNum T] (d s : T) : addAssign d s = match add s d with | .ok s' => (s', none) | .error p => (s, some p) := rfl

/-- overflow checks: a chain of additions goes through exactly if every partial sum fits -/
theorem adds_checked {α : Type} (hc : Cfg.checked = true) (f : α → Call (MInt τ) C) (wt : α → MInt τ) (l : List α) (hon : ∀ x, (f x).on = addAssign (wt x)) (v : MInt τ) :
    ((fillSeq (l.map f) v).2 = none ↔ ∀ q, q <+: l → InRange τ (v.val + (q.map fun x => (wt x).val).sum)) ∧
    ((fillSeq (l.map f) v).2 = none → (fillSeq (l.map f) v).1.val = v.val + (l.map fun x => (wt x).val).sum) := by
  induction l generalizing v with
  | nil =>
    refine ⟨⟨fun _ q hq => ?_, fun _ => rfl⟩, fun _ => by simp [fillSeq]⟩
    rw [List.prefix_nil.1 hq]
    simpa using v.inRange
  | cons x l ih =>
    rw [List.map_cons, fillSeq, hon x, addAssign_eq, MInt.add_def]
    by_cases hr : InRange τ (v.val + (wt x).val)
    · rw [MInt.arith_ok hr.1 hr.2]
      obtain ⟨i1, i2⟩ := ih ⟨_, hr.1, hr.2⟩
      refine ⟨i1.trans ⟨fun h q hq => ?_, fun h q hq => ?_⟩, fun h => by rw [i2 h]; simp [add_assoc]⟩
      · cases q with
        | nil => simpa using v.inRange
        | cons g q =>
          obtain ⟨rfl, hq'⟩ := List.cons_prefix_cons.1 hq
          have := h q hq'
          simpa [add_assoc] using this
      · have := h (x :: q) (List.cons_prefix_cons.2 ⟨rfl, hq⟩)
        simpa [add_assoc] using this
    · rw [MInt.arith_none hc hr]
      refine ⟨⟨fun h => by simp at h, fun h => absurd (h [x] (by simp)) ?_⟩, fun h => by simp at h⟩
      simpa using hr

/-- no overflow checks: a chain of additions gives the sum modulo `2^bits` -/
theorem adds_modulo {α T : Type} [RNum T] {val : T → ℤ} {N : ℤ} (hT : AddsModulo val N) (f : α → Call T C) (wt : α → T) (l : List α) (hon : ∀ x, (f x).on = addAssign (wt x)) (v : T) :
    (fillSeq (l.map f) v).2 = none ∧ val (fillSeq (l.map f) v).1 ≡ val v + (l.map fun x => val (wt x)).sum [ZMOD N] := by
  induction l generalizing v with
  | nil => simp [fillSeq]
  | cons x l ih =>
    obtain ⟨c, h1, h2⟩ := hT.add v (wt x)
    rw [List.map_cons, fillSeq, hon x, addAssign_eq, h1]
    obtain ⟨i1, i2⟩ := ih c
    refine ⟨i1, i2.trans ?_⟩
    rw [List.map_cons, List.sum_cons, ← add_assoc]
    exact h2.add_right _

theorem standsFor_modulo {α T : Type} [RNum T] {val : T → ℤ} {N : ℤ} (hT : AddsModulo val N) (hinj : ∀ a b, val a ≡ val b [ZMOD N] → a = b) (g : Call T C) (w : T) (hg : g.on = addAssign w)
    (f : α → Call T C) (wt : α → T) (l : List α) (hon : ∀ x, (f x).on = addAssign (wt x)) (hne : l ≠ []) (hco : ∀ x, (f x).coord = g.coord)
    (hw : val w ≡ (l.map fun x => val (wt x)).sum [ZMOD N]) : StandsFor g (l.map f) := by
  have e1 : ∀ v, fillSeq [g] v = g.on v := by
    intro v
    simp only [fillSeq]
    rcases g.on v with ⟨v', _ | p⟩ <;> rfl
  have a := fun v => adds_modulo hT f wt l hon v
  have b := fun v => adds_modulo hT (fun _ : Unit => g) (fun _ => w) [()] (fun _ => hg) v
  simp only [List.map_cons, List.map_nil, e1] at b
  refine ⟨by simpa using hne, by simpa using fun x _ => hco x, fun v => by simp [(a v).1, (b v).1], fun v _ => Prod.ext (hinj _ _ ?_) (by rw [(a v).1, (b v).1])⟩
  refine (b v).2.trans (.trans ?_ (a v).2.symm)
  simpa using hw.add_left _

omit cfg in
theorem sum_le_zero {α : Type} (wt : α → MInt τ) {l : List α} (h : ∀ x ∈ l, (wt x).val ≤ 0) : (l.map fun x => (wt x).val).sum ≤ 0 := by
  induction l with
  | nil => simp
  | cons x l ih =>
    have h1 := h x (by simp)
    have h2 := ih fun y hy => h y (by simp [hy])
    rw [List.map_cons, List.sum_cons]; omega

theorem MInt.eq_of_residue {a b : MInt τ} (h : a.val ≡ b.val [ZMOD 2 ^ τ.bits]) : a = b := MInt.ext (MInt.eq_of_modEq h b.inRange)

/-- one addition for a chain of additions of the same sign -/
theorem standsFor_int {α : Type} (g : Call (MInt τ) C) (w : MInt τ) (hg : g.on = addAssign w) (f : α → Call (MInt τ) C) (wt : α → MInt τ) (l : List α) (hon : ∀ x, (f x).on = addAssign (wt x))
    (hne : l ≠ []) (hco : ∀ x, (f x).coord = g.coord) (hw : w.val = (l.map fun x => (wt x).val).sum)
    (hs : Cfg.checked = true → (∀ x ∈ l, 0 ≤ (wt x).val) ∨ ∀ x ∈ l, (wt x).val ≤ 0) : StandsFor g (l.map f) := by
  rcases hc : Cfg.checked with _ | _
  · exact standsFor_modulo (C73_release hc) (fun _ _ => MInt.eq_of_residue) g w hg f wt l hon hne hco (by rw [hw])
  · have e1 : ∀ v, fillSeq [g] v = g.on v := by
      intro v
      simp only [fillSeq]
      rcases g.on v with ⟨v', _ | p⟩ <;> rfl
    have a := fun v => adds_checked hc f wt l hon v
    have b := fun v => adds_checked hc (fun _ : Unit => g) (fun _ => w) [()] (fun _ => hg) v
    simp only [List.map_cons, List.map_nil, e1] at b
    have hok : ∀ v, (g.on v).2 = none ↔ (fillSeq (l.map f) v).2 = none := by
      intro v
      rw [(a v).1, (b v).1]
      have hv1 := v.min_le; have hv2 := v.le_max
      constructor
      · intro h q hq
        have ht := h [()] (by simp)
        simp only [List.map_cons, List.map_nil, List.sum_cons, List.sum_nil, add_zero, hw] at ht
        obtain ⟨q', rfl⟩ := hq
        rw [List.map_append, List.sum_append] at ht
        rcases hs hc with hs | hs
        · have s1 : 0 ≤ (q.map fun x => (wt x).val).sum := List.sum_nonneg (by simpa using fun f hf => hs f (by simp [hf]))
          have s2 : 0 ≤ (q'.map fun x => (wt x).val).sum := List.sum_nonneg (by simpa using fun f hf => hs f (by simp [hf]))
          exact ⟨by omega, by have := ht.2; omega⟩
        · have s1 : (q.map fun x => (wt x).val).sum ≤ 0 := sum_le_zero wt fun x hx => hs x (by simp [hx])
          have s2 : (q'.map fun x => (wt x).val).sum ≤ 0 := sum_le_zero wt fun x hx => hs x (by simp [hx])
          exact ⟨by have := ht.1; omega, by omega⟩
      · intro h q hq
        rcases List.prefix_cons_iff.1 hq with rfl | ⟨t, rfl, ht⟩
        · simpa using v.inRange
        · rw [List.prefix_nil.1 ht]
          have := h l List.prefix_rfl
          simpa [hw] using this
    refine ⟨by simpa using hne, by simpa using fun x _ => hco x, hok, fun v hn => Prod.ext (MInt.ext ?_) (by rw [hn, (hok v).1 hn])⟩
    rw [(b v).2 hn, (a v).2 ((hok v).1 hn)]
    simp [hw]

omit cfg in
theorem map_replicate_unit {β : Type 1} (n : Nat) (b : β) : (List.replicate n ()).map (fun _ => b) = List.replicate n b := by simp

/-- C90 (integer counters): `fill_with(c, n)` stands for `n` calls `fill(c)`, for every `n > 0`, in both builds. -/
theorem C90_int_fills (c : C) (w : MInt τ) (hw : 0 < w.val) : StandsFor (.fillWith c w : Call (MInt τ) C) (List.replicate w.val.toNat (.fill c)) := by
  rw [← map_replicate_unit]
  refine standsFor_int _ w rfl _ (fun _ => @one (MInt τ) cfg _) _ (fun _ => rfl) ?_ (fun _ => rfl) ?_ ?_
  · simp; omega
  · simp [MInt.one_val, hw.le]
  · exact fun _ => .inl fun f hf => by rw [MInt.one_val]; decide

/-- C90 (integer weights): `fill_with(c, w)` stands for several `fill_with(c, w_i)` of the same sign whose sum is `w`; without overflow checks for weights of any sign. -/
theorem C90_int_weights (c : C) (w : MInt τ) (ws : List (MInt τ)) (hne : ws ≠ []) (hw : w.val = (ws.map MInt.val).sum)
    (hs : Cfg.checked = true → (∀ x ∈ ws, 0 ≤ x.val) ∨ ∀ x ∈ ws, x.val ≤ 0) : StandsFor (.fillWith c w : Call (MInt τ) C) (ws.map (.fillWith c)) :=
  standsFor_int _ w rfl _ id _ (fun _ => rfl) hne (fun _ => rfl) hw hs

/-- C90 (weights of both signs with overflow checks): the parts may panic where the total does not. -/
theorem C90_counterexample_signs (hc : Cfg.checked = true) (c : C) : ¬ ∀ w x y : MInt .i8, w.val = x.val + y.val → StandsFor (.fillWith c w : Call (MInt .i8) C) [.fillWith c x, .fillWith c y] := by
  intro h
  have := (h (.lit 0) (.lit 100) (.lit (-100)) (by decide)).ok (.lit 100)
  have e1 : ((Call.fillWith c (MInt.lit 0 : MInt .i8) : Call (MInt .i8) C).on (.lit 100)).2 = none := rfl
  have e2 : (fillSeq [(Call.fillWith c (MInt.lit 100 : MInt .i8) : Call (MInt .i8) C), .fillWith c (MInt.lit (-100) : MInt .i8)] (.lit 100)).2 = some .overflow := by
    have : (Call.fillWith c (MInt.lit 100 : MInt .i8) : Call (MInt .i8) C).on (.lit 100) = (.lit 100, some .overflow) := by
      show addAssign _ _ = _
      rw [addAssign_eq, MInt.add_def, MInt.arith_none hc (by unfold InRange; decide)]
    rw [fillSeq, this]
  rw [e2] at this
  exact absurd (this.1 e1) (by simp)

/-- C90 (`Wrapping` numbers): `fill_with(c, w)` stands for `n > 0` calls `fill(c)`, or for several `fill_with(c, w_i)`, whenever `w` is `n`, or the sum of the `w_i`, modulo `2^bits`. -/
theorem C90_wrapping_fills (c : C) (w : WInt τ) (n : Nat) (hn : 0 < n) (hw : w.val ≡ n [ZMOD 2 ^ τ.bits]) : StandsFor (.fillWith c w : Call (WInt τ) C) (List.replicate n (.fill c)) := by
  rw [← map_replicate_unit]
  refine standsFor_modulo C73_wrapping (fun a b h => ?_) _ w rfl _ (fun _ => @one (WInt τ) cfg _) _ (fun _ => rfl) ?_ (fun _ => rfl) ?_
  · cases a; cases b; congr; exact MInt.eq_of_residue h
  · simp; omega
  · simpa [C73_wrapping.one] using hw
theorem C90_wrapping_weights (c : C) (w : WInt τ) (ws : List (WInt τ)) (hne : ws ≠ []) (hw : w.val ≡ (ws.map WInt.val).sum [ZMOD 2 ^ τ.bits]) :
    StandsFor (.fillWith c w : Call (WInt τ) C) (ws.map (.fillWith c)) := by
  refine standsFor_modulo C73_wrapping (fun a b h => ?_) _ w rfl _ id _ (fun _ => rfl) hne (fun _ => rfl) hw
  cases a; cases b; congr; exact MInt.eq_of_residue h
end

/-! ## Sum -/
section
variable {C T : Type}

theorem sum_on_with {D : Type} [FillWith T D] (c : C) (d : D) (s : Sum T) : (Call.fillWith c d : Call (Sum T) C).on s = (⟨((Call.fillWith c d : Call T C).on s.sum).1⟩, ((Call.fillWith c d : Call T C).on s.sum).2) := rfl
theorem sum_on_fill [Fill T] (c : C) (s : Sum T) : (Call.fill c : Call (Sum T) C).on s = (⟨((Call.fill c : Call T C).on s.sum).1⟩, ((Call.fill c : Call T C).on s.sum).2) := rfl

theorem standsFor_sum {α : Type} {g : Call T C} {g' : Call (Sum T) C} {f : α → Call T C} {f' : α → Call (Sum T) C} {l : List α} (hg : g'.coord = g.coord) (hf : ∀ x, (f' x).coord = (f x).coord)
    (eg : ∀ s, g'.on s = (⟨(g.on s.sum).1⟩, (g.on s.sum).2)) (ef : ∀ x s, (f' x).on s = (⟨((f x).on s.sum).1⟩, ((f x).on s.sum).2)) (h : StandsFor g (l.map f)) : StandsFor g' (l.map f') := by
  have e : ∀ s : Sum T, fillSeq (l.map f') s = (⟨(fillSeq (l.map f) s.sum).1⟩, (fillSeq (l.map f) s.sum).2) := by
    have hl := l
    clear h
    induction l with
    | nil => intro s; rfl
    | cons x l ih =>
      intro s
      rw [List.map_cons, List.map_cons, fillSeq, fillSeq, ef]
      rcases (f x).on s.sum with ⟨v, _ | p⟩
      · exact ih ⟨v⟩
      · rfl
  refine ⟨by have := h.some; simpa using this, ?_, fun s => by rw [eg, e]; exact h.ok s.sum, fun s hn => ?_⟩
  · have := h.coord
    simp only [List.mem_map, forall_exists_index, and_imp, forall_apply_eq_imp_iff₂] at this ⊢
    intro x hx
    rw [hf, hg, this x hx]
  · rw [eg] at hn ⊢
    rw [e, h.same s.sum hn]

/-- C90 (`Sum`): what stands for several fills of a number stands for several fills of a `Sum` of such numbers. -/
theorem C90_sum_fills {D : Type} [Fill T] [FillWith T D] (c : C) (d : D) (n : Nat) (h : StandsFor (.fillWith c d : Call T C) (List.replicate n (.fill c))) :
    StandsFor (.fillWith c d : Call (Sum T) C) (List.replicate n (.fill c)) := by
  rw [← map_replicate_unit] at h ⊢
  exact standsFor_sum (f := fun _ => Call.fill c) (f' := fun _ => Call.fill c) rfl (fun _ => rfl) (sum_on_with c d) (fun _ => sum_on_fill c) h
theorem C90_sum_weights {D : Type} [FillWith T D] (c : C) (d : D) (ds : List D) (h : StandsFor (.fillWith c d : Call T C) (ds.map (.fillWith c))) :
    StandsFor (.fillWith c d : Call (Sum T) C) (ds.map (.fillWith c)) :=
  standsFor_sum rfl (fun _ => rfl) (sum_on_with c d) (fun x => sum_on_with c x) h
end
end NdHist
