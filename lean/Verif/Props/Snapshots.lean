import Verif.Props.ThreadsValue
import Verif.Props.Batch
import Verif.Props.FloatExact
import Verif.Props.Prog
/-!
# C94: differences of snapshots, and fills that are taken back
-/
set_option linter.unusedSectionVars false
namespace NdHist
open RNum

/-- the weights of two calls (1 for a fill without a weight) are opposite: they add up to 0, in a build without overflow checks modulo `2^bits` -/
def Opposite [cfg : Cfg] {τ : IntTy} (w w' : Option (MInt τ)) : Prop :=
  if Cfg.checked then (w.getD (@one (MInt τ) cfg _)).val + (w'.getD (@one (MInt τ) cfg _)).val = 0
  else (2 : ℤ) ^ τ.bits ∣ (w.getD (@one (MInt τ) cfg _)).val + (w'.getD (@one (MInt τ) cfg _)).val

/-- `hist'` takes back the calls of `hist` one by one: the same coordinates with the opposite weights -/
def TakesBack {C : Type} [cfg : Cfg] {τ : IntTy} (hist hist' : List (C × Option (MInt τ))) : Prop :=
  List.Forall₂ (fun cw cw' => cw'.1 = cw.1 ∧ Opposite cw.2 cw'.2) hist hist'

/-- a value is the difference of two others if its account is -/
structure SubLike {V M : Type} [ROps V] [RDefault V] [AddCommMonoid M] (μ : V → M) : Prop where
  dflt : μ RDefault.dflt = 0
  sub : ∀ x y z, μ z = μ x + μ y → ROps.op .sub z x = .ok y

section
variable [cfg : Cfg] {τ : IntTy}

theorem int_subLike_checked : SubLike (fun x : MInt τ => x.val) where
  dflt := rfl
  sub x y z h := by
    have h : z.val = x.val + y.val := h
    show MInt.arith (z.val - x.val) = .ok y
    have e : z.val - x.val = y.val := by omega
    unfold MInt.arith
    rw [dif_pos (by rw [e]; exact ⟨y.min_le, y.le_max⟩)]
    congr 1
    exact MInt.ext e

theorem int_subLike_release (hc : Cfg.checked = false) : SubLike (fun x : MInt τ => residue x) where
  dflt := by show ((0 : Int) : ZMod (2 ^ τ.bits)) = 0; simp
  sub x y z h := by
    have h : residue z = residue x + residue y := h
    show MInt.arith (z.val - x.val) = .ok y
    obtain ⟨w, hw⟩ : ∃ w : MInt τ, MInt.arith (z.val - x.val) = .ok w := by
      unfold MInt.arith
      split
      · exact ⟨_, rfl⟩
      · rw [if_neg (by simp [hc])]; exact ⟨_, rfl⟩
    rw [hw]
    congr 1
    apply residue_inj
    rw [residue_arith hw]
    have e : ((z.val - x.val : ℤ) : ZMod (2 ^ τ.bits)) = residue z - residue x := by simp [residue]
    rw [e, h]; ring

variable {A : Type} [Axis A] {V M : Type} [AddCommMonoid M] {μ : V → M} {weight : Call V (Axis.Coordinate A) → M}

theorem VecHistogram.callAll_none_ok {h h' : VecHistogram A V} {n : Nat} {calls} (ok : h.Ok n) (hr : h.callAll calls = (h', none)) : h'.Ok n ∧ h'.axes = h.axes := by
  have := VecHistogram.callAll_ok (h := h) (calls := calls) (by rw [hr])
  rw [hr] at this
  have this : h' = h.callAllCaught calls := this
  rw [this]
  exact ⟨ok.callAllCaught _, VecHistogram.callAllCaught_axes ..⟩

theorem HashHistogram.callAll_none_ok [RDefault V] {h h' : HashHistogram A V} {n : Nat} {calls} (ok : h.Ok n) (hr : h.callAll calls = (h', none)) : h'.Ok n ∧ h'.axes = h.axes := by
  have := HashHistogram.callAll_ok (h := h) (calls := calls) (by rw [hr])
  rw [hr] at this
  have this : h' = h.callAllCaught calls := this
  rw [this]
  exact ⟨ok.callAllCaught _, HashHistogram.callAllCaught_axes ..⟩

theorem snapshots_dense [PEq A] [ROps V] [RDefault V] (hμ : SubLike μ) {axes : A} {n : Nat} (hl : LawfulAxis axes n)
    (hrefl : PEq.peq axes axes = true) {calls : List (Call V (Axis.Coordinate A))} (hw : ∀ call ∈ calls, Adds μ call.on (weight call))
    {h s t f : VecHistogram A V} (hnew : VecHistogram.new axes = .ok h) (ok : s.Ok n) (hax : s.axes = axes)
    (rt : s.callAll calls = (t, none)) (rf : h.callAll calls = (f, none)) : t.opBorrow .sub s = .ok (.ok f) := by
  obtain ⟨h₀, b1, b2, b3, b4⟩ := C26_new (V := V) hl
  have he : h = h₀ := by rw [hnew] at b1; exact Except.ok.inj b1
  subst he
  obtain ⟨ot, at'⟩ := VecHistogram.callAll_none_ok ok rt
  obtain ⟨of', af⟩ := VecHistogram.callAll_none_ok b2 rf
  have key : ∀ i, i < n → ∃ x y z, t.valueAtIndex i = some z ∧ s.valueAtIndex i = some x ∧ f.valueAtIndex i = some y ∧ ROps.op .sub z x = .ok y := by
    intro i hi
    have hv : h.valueAtIndex i = some RDefault.dflt := by rw [b4, if_pos hi]
    obtain ⟨x, hx⟩ : ∃ x, s.valueAtIndex i = some x := by
      cases hx : s.valueAtIndex i with
      | none => exact absurd (ok.get_none.1 hx) (by omega)
      | some x => exact ⟨x, rfl⟩
    obtain ⟨z, z1, z2⟩ := VecHistogram.callAll_measure hw rt hx
    obtain ⟨y, y1, y2⟩ := VecHistogram.callAll_measure hw rf hv
    refine ⟨x, y, z, z1, hx, y1, hμ.sub x y z ?_⟩
    rw [z2, y2, hμ.dflt, zero_add, hax, b3]
  rcases C33_binwise_dense .sub ot ok (by rw [at', hax]; exact hrefl) with ⟨m, m1, m2, m3, m4⟩ | ⟨p, i, x, y, -, p2, p3, p4⟩
  · rw [m1]
    congr 2
    apply VecHistogram.ext_get (by rw [m3, at', hax, af, b3])
    intro i
    by_cases hi : i < n
    · obtain ⟨x, y, z, k1, k2, k3, k4⟩ := key i hi
      obtain ⟨x', y', z', l1, l2, l3, l4⟩ := m4 i hi
      rw [k1] at l1; rw [k2] at l2; cases l1; cases l2
      rw [k4] at l3; cases l3
      rw [k3, l4]
    · rw [(m2.get_none).2 (by omega), (of'.get_none).2 (by omega)]
  · exfalso
    have hi : i < n := by
      by_contra hn
      rw [(ot.get_none).2 (by omega)] at p2; cases p2
    obtain ⟨x', y', z, k1, k2, k3, k4⟩ := key i hi
    rw [k1] at p2; rw [k2] at p3; cases p2; cases p3
    rw [k4] at p4; cases p4

theorem numCalls_weights (hist : List (Axis.Coordinate A × Option (MInt τ))) :
    (Cfg.checked = false → ∀ call ∈ numCalls hist, Adds (fun x : MInt τ => residue x) call.on (someWeight (fun x : MInt τ => residue x) call)) ∧
    (Cfg.checked = true → ∀ call ∈ numCalls hist, Adds (fun x : MInt τ => x.val) call.on (someWeight (fun x : MInt τ => x.val) call)) :=
  ⟨fun _ call hm => someWeight_adds (numCalls_adds residue int_addAssign_residue _ call hm),
   fun hc call hm => someWeight_adds (numCalls_adds MInt.val (int_addAssign_val hc) _ call hm)⟩

/-- **C94 (snapshots).** Fill a histogram of integers further, from any contents `s` (a snapshot) to `t`. Then `&t - &s`, `t - &s` and `t -= &s` give the histogram `f` of just the fills in between, if filling
a new histogram with them does not overflow. -/
theorem C94_snapshots [PEq A] {axes : A} {n : Nat} (hl : LawfulAxis axes n) (hrefl : PEq.peq axes axes = true) {h s t f : VecHistogram A (MInt τ)} (hnew : VecHistogram.new axes = .ok h)
    (ok : s.Ok n) (hax : s.axes = axes) (hist : List (Axis.Coordinate A × Option (MInt τ)))
    (rt : s.callAll (numCalls hist) = (t, none)) (rf : h.callAll (numCalls hist) = (f, none)) :
    t.opBorrow .sub s = .ok (.ok f) ∧ t.opOwned .sub s = .ok (.ok f) ∧ t.opAssign .sub s = (f, none) := by
  have key : t.opBorrow .sub s = .ok (.ok f) := by
    cases hc : Cfg.checked
    · exact snapshots_dense (int_subLike_release hc) hl hrefl ((numCalls_weights hist).1 hc) hnew ok hax rt rf
    · exact snapshots_dense int_subLike_checked hl hrefl ((numCalls_weights hist).2 hc) hnew ok hax rt rf
  obtain ⟨ot, -⟩ := VecHistogram.callAll_none_ok ok rt
  obtain ⟨c1, c2, -⟩ := C35_dense (V := MInt τ) .sub ot ok
  exact ⟨key, c1.trans key, c2 _ key⟩

theorem fillSeq_smaller {C : Type} (hist : List (C × Option (MInt τ))) (hw : Cfg.checked = true → NonNegWeights hist) {v w : MInt τ} (h0 : Cfg.checked = true → 0 ≤ w.val ∧ w.val ≤ v.val)
    (h : (fillSeq (numCalls hist) v).2 = none) : (fillSeq (numCalls hist) w).2 = none := by
  induction hist generalizing v w with
  | nil => rfl
  | cons cw hist ih =>
    have hon : ∀ cw : C × Option (MInt τ), (match cw.2 with | none => Call.fill cw.1 | some w => Call.fillWith cw.1 w : Call (MInt τ) C).on = addAssign (cw.2.getD (@one (MInt τ) cfg _)) := by
      rintro ⟨c, _ | w⟩ <;> rfl
    have hcons : numCalls (cw :: hist) = (match cw.2 with | none => Call.fill cw.1 | some w => Call.fillWith cw.1 w) :: numCalls hist := by obtain ⟨c, _ | w⟩ := cw <;> rfl
    rw [hcons] at h ⊢
    unfold fillSeq at h ⊢
    rw [hon] at h ⊢
    set d := cw.2.getD (@one (MInt τ) cfg _) with hd
    rcases hv : addAssign d v with ⟨v', _ | p⟩
    · rw [hv] at h
      have hv' := addAssign_ok_iff.1 hv
      cases hc : Cfg.checked
      · obtain ⟨w', hw'⟩ : ∃ w' : MInt τ, @add (MInt τ) cfg _ w d = .ok w' := by
          show ∃ w' : MInt τ, MInt.arith (w.val + d.val) = .ok w'
          unfold MInt.arith
          split
          · exact ⟨_, rfl⟩
          · rw [if_neg (by simp [hc])]; exact ⟨_, rfl⟩
        rw [addAssign_ok_iff.2 hw']
        exact ih (fun h => absurd h (by simp [hc])) (fun h => absurd h (by simp [hc])) h
      · have hd0 : 0 ≤ d.val := (hw hc).getD (List.mem_cons_self ..)
        obtain ⟨w0, wv⟩ := h0 hc
        have e1 : v'.val = v.val + d.val := by
          have : MInt.arith (v.val + d.val) = .ok v' := hv'
          unfold MInt.arith at this
          split at this
          · cases this; rfl
          · simp [hc] at this
        have hr : τ.min ≤ w.val + d.val ∧ w.val + d.val ≤ τ.max := ⟨by have := w.min_le; omega, by have := v'.le_max; omega⟩
        have hw' : @add (MInt τ) cfg _ w d = .ok (⟨w.val + d.val, hr.1, hr.2⟩ : MInt τ) := by
          show MInt.arith (w.val + d.val) = _
          unfold MInt.arith
          rw [dif_pos hr]
        rw [addAssign_ok_iff.2 hw']
        refine ih (fun _ => fun cw hcw => (hw hc) cw (by simp [hcw])) (fun _ => ⟨?_, ?_⟩) h
        · show 0 ≤ w.val + d.val; omega
        · show w.val + d.val ≤ v'.val; omega
    · rw [hv] at h; cases h

theorem callsIn_numCalls (axes : A) (i : Nat) (hist : List (Axis.Coordinate A × Option (MInt τ))) :
    callsIn axes i (numCalls hist) = numCalls (hist.filter fun cw => decide (Axis.index axes cw.1 = .ok (some i))) := by
  induction hist with
  | nil => rfl
  | cons cw hist ih =>
    have hc : (match cw.2 with | none => Call.fill cw.1 | some w => Call.fillWith cw.1 w : Call (MInt τ) (Axis.Coordinate A)).coord = cw.1 := by
      obtain ⟨c, _ | w⟩ := cw <;> rfl
    have hcons : ∀ l : List (Axis.Coordinate A × Option (MInt τ)), numCalls (cw :: l) = (match cw.2 with | none => Call.fill cw.1 | some w => Call.fillWith cw.1 w) :: numCalls l := by intro l; obtain ⟨c, _ | w⟩ := cw <;> rfl
    rw [hcons]
    unfold callsIn at ih ⊢
    rw [List.filter_cons, List.filter_cons, hc]
    by_cases hi : Axis.index axes cw.1 = .ok (some i)
    · simp only [hi, decide_true, if_true, hcons, ih]
    · simp only [hi, decide_false, if_false, ih, Bool.false_eq_true]

/-- **C94 (snapshots of counts).** With weights and contents that are not negative (always so for unsigned types and for counting), or in a build without overflow checks, filling a new histogram with the fills
in between does not overflow if filling the larger one did not: the difference of the snapshots always exists and is the histogram of the fills in between. -/
theorem C94_snapshots_counts [PEq A] {axes : A} {n : Nat} (hl : LawfulAxis axes n) (hrefl : PEq.peq axes axes = true) {h s t : VecHistogram A (MInt τ)} (hnew : VecHistogram.new axes = .ok h)
    (ok : s.Ok n) (hax : s.axes = axes) (hist : List (Axis.Coordinate A × Option (MInt τ))) (hw : Cfg.checked = true → NonNegWeights hist ∧ ∀ v ∈ s.values, 0 ≤ v.val)
    (rt : s.callAll (numCalls hist) = (t, none)) :
    ∃ f, h.callAll (numCalls hist) = (f, none) ∧ t.opBorrow .sub s = .ok (.ok f) := by
  obtain ⟨h₀, b1, b2, b3, b4⟩ := C26_new (V := MInt τ) hl
  have he : h = h₀ := by rw [hnew] at b1; exact Except.ok.inj b1
  subst he
  have h1 : (s.callAll (numCalls hist)).2 = none := by rw [rt]
  have h2 : (h.callAll (numCalls hist)).2 = none := by
    rw [VecHistogram.callAll_none_iff] at h1 ⊢
    refine ⟨fun c hc => by rw [b3, ← hax]; exact h1.1 c hc, fun i v hv => ?_⟩
    have hi : i < n := by
      rw [b4] at hv
      by_contra hn
      rw [if_neg hn] at hv; cases hv
    rw [b4, if_pos hi] at hv
    cases hv
    obtain ⟨x, hx⟩ : ∃ x, s.valueAtIndex i = some x := by
      cases hx : s.valueAtIndex i with
      | none => exact absurd (ok.get_none.1 hx) (by omega)
      | some x => exact ⟨x, rfl⟩
    have := h1.2 i x hx
    rw [hax] at this
    rw [b3]
    rw [callsIn_numCalls] at this ⊢
    refine fillSeq_smaller _ (fun hc cw hcw => (hw hc).1 cw (List.mem_filter.1 hcw).1) (fun hc => ⟨le_refl _, ?_⟩) this
    exact (hw hc).2 x (List.mem_of_getElem? hx)
  refine ⟨(h.callAll (numCalls hist)).1, Prod.ext rfl h2, ?_⟩
  exact (C94_snapshots hl hrefl hnew ok hax hist rt (Prod.ext rfl h2)).1

/-! ## Fills that are taken back -/

theorem opposite_residue {w w' : Option (MInt τ)} (h : Opposite w w') : residue (w.getD (@one (MInt τ) cfg _)) + residue (w'.getD (@one (MInt τ) cfg _)) = 0 := by
  have : (2 : ℤ) ^ τ.bits ∣ (w.getD (@one (MInt τ) cfg _)).val + (w'.getD (@one (MInt τ) cfg _)).val := by
    unfold Opposite at h
    split at h
    · rw [h]; exact dvd_zero _
    · exact h
  have h2 := (ZMod.intCast_zmod_eq_zero_iff_dvd ((w.getD (@one (MInt τ) cfg _)).val + (w'.getD (@one (MInt τ) cfg _)).val) (2 ^ τ.bits)).2 (by exact_mod_cast this)
  rw [← h2]; simp [residue]

theorem addAssign_back {w w' : Option (MInt τ)} (h : Opposite w w') {v v' : MInt τ} (hv : addAssign (w.getD (@one (MInt τ) cfg _)) v = (v', none)) :
    addAssign (w'.getD (@one (MInt τ) cfg _)) v' = (v, none) := by
  have hr := opposite_residue h
  have hres := int_addAssign_residue _ v v' hv
  rw [addAssign_ok_iff]
  show MInt.arith (v'.val + (w'.getD (@one (MInt τ) cfg _)).val) = .ok v
  cases hc : Cfg.checked
  · obtain ⟨x, hx⟩ : ∃ x : MInt τ, MInt.arith (v'.val + (w'.getD (@one (MInt τ) cfg _)).val) = .ok x := by
      unfold MInt.arith
      split
      · exact ⟨_, rfl⟩
      · rw [if_neg (by simp [hc])]; exact ⟨_, rfl⟩
    rw [hx]
    congr 1
    apply residue_inj
    rw [residue_arith hx]
    have e : ((v'.val + (w'.getD (@one (MInt τ) cfg _)).val : ℤ) : ZMod (2 ^ τ.bits)) = residue v' + residue (w'.getD (@one (MInt τ) cfg _)) := by simp [residue]
    have hres : residue v' = residue v + residue (w.getD (@one (MInt τ) cfg _)) := hres
    rw [e, hres, add_assoc, hr, add_zero]
  · have hval := int_addAssign_val hc _ v v' hv
    have hval : v'.val = v.val + (w.getD (@one (MInt τ) cfg _)).val := hval
    unfold Opposite at h
    rw [if_pos hc] at h
    have e : v'.val + (w'.getD (@one (MInt τ) cfg _)).val = v.val := by omega
    unfold MInt.arith
    rw [dif_pos (by rw [e]; exact ⟨v.min_le, v.le_max⟩)]
    congr 1
    exact MInt.ext e

theorem numCalls_cons {C : Type} (cw : C × Option (MInt τ)) (l : List (C × Option (MInt τ))) :
    ∃ c : Call (MInt τ) C, c.coord = cw.1 ∧ c.on = addAssign (cw.2.getD (@one (MInt τ) cfg _)) ∧ numCalls (cw :: l) = c :: numCalls l := by
  obtain ⟨c, _ | w⟩ := cw
  · exact ⟨.fill c, rfl, rfl, rfl⟩
  · exact ⟨.fillWith c w, rfl, rfl, rfl⟩

theorem numCalls_append' {C : Type} (l l' : List (C × Option (MInt τ))) : numCalls (l ++ l') = numCalls l ++ numCalls l' := List.map_append ..

theorem TakesBack.split {C : Type} {a b l : List (C × Option (MInt τ))} (h : TakesBack (a ++ b) l) : ∃ l1 l2, TakesBack a l1 ∧ TakesBack b l2 ∧ l = l1 ++ l2 := by
  induction a generalizing l with
  | nil => exact ⟨[], l, .nil, h, rfl⟩
  | cons x a ih =>
    cases h with
    | @cons _ y _ l' hxy ht =>
      obtain ⟨l1, l2, h1, h2, rfl⟩ := ih ht
      exact ⟨y :: l1, l2, .cons hxy h1, h2, rfl⟩

theorem fillSeq_back {C : Type} (hist : List (C × Option (MInt τ))) {hist' : List (C × Option (MInt τ))} (hb : TakesBack hist.reverse hist') {v v' : MInt τ}
    (h : fillSeq (numCalls hist) v = (v', none)) : fillSeq (numCalls hist') v' = (v, none) := by
  induction hist generalizing hist' v with
  | nil =>
    cases hb
    cases h
    rfl
  | cons cw hist ih =>
    rw [List.reverse_cons] at hb
    obtain ⟨l1, l2, b1, b2, rfl⟩ : ∃ l1 l2, TakesBack hist.reverse l1 ∧ TakesBack [cw] l2 ∧ hist' = l1 ++ l2 :=
      TakesBack.split hb
    cases b2 with
    | @cons _ cw' _ _ hcw hnil =>
      cases hnil
      obtain ⟨c, -, c2, c3⟩ := numCalls_cons cw hist
      obtain ⟨c', -, c2', c3'⟩ := numCalls_cons cw' []
      rw [c3, fillSeq, c2] at h
      rcases hv : addAssign (cw.2.getD (@one (MInt τ) cfg _)) v with ⟨v1, _ | p⟩
      · rw [hv] at h
        rw [numCalls_append', fillSeq_append, ih b1 h, c3']
        show fillSeq (c' :: []) v1 = _
        rw [fillSeq, c2', addAssign_back hcw.2 hv]
        rfl
      · rw [hv] at h; cases h

theorem TakesBack.filter {C : Type} (p : C → Bool) {l l' : List (C × Option (MInt τ))} (h : TakesBack l l') : TakesBack (l.filter fun cw => p cw.1) (l'.filter fun cw => p cw.1) := by
  induction h with
  | nil => exact .nil
  | @cons a b l l' hab _ ih =>
    rw [List.filter_cons, List.filter_cons, hab.1]
    split
    · exact .cons hab ih
    · exact ih

theorem TakesBack.coord {C : Type} {l l' : List (C × Option (MInt τ))} (h : TakesBack l l') : l'.map (·.1) = l.map (·.1) := by
  induction h with
  | nil => rfl
  | cons hab _ ih => simp [hab.1, ih]

theorem numCalls_coords {C : Type} (l : List (C × Option (MInt τ))) : (numCalls l).map Call.coord = l.map (·.1) := by
  induction l with
  | nil => rfl
  | cons cw l ih =>
    obtain ⟨c, c1, -, c3⟩ := numCalls_cons cw l
    rw [c3, List.map_cons, List.map_cons, c1, ih]

theorem back_total {axes : A} {hist hist' : List (Axis.Coordinate A × Option (MInt τ))} (hb : TakesBack hist.reverse hist') (h : ∀ c ∈ numCalls hist, IndexTotal axes c.coord) :
    ∀ c ∈ numCalls hist', IndexTotal axes c.coord := by
  intro c hc
  have h1 : c.coord ∈ (numCalls hist').map Call.coord := List.mem_map_of_mem hc
  rw [numCalls_coords, hb.coord, List.map_reverse, List.mem_reverse, ← numCalls_coords, List.mem_map] at h1
  obtain ⟨c', m, e⟩ := h1
  rw [← e]; exact h c' m

theorem back_in {axes : A} {hist hist' : List (Axis.Coordinate A × Option (MInt τ))} (hb : TakesBack hist.reverse hist') (i : Nat) {v v' : MInt τ}
    (h : fillSeq (callsIn axes i (numCalls hist)) v = (v', none)) : fillSeq (callsIn axes i (numCalls hist')) v' = (v, none) := by
  rw [callsIn_numCalls] at h ⊢
  refine fillSeq_back _ ?_ h
  rw [← List.filter_reverse]
  exact hb.filter fun c => decide (Axis.index axes c = .ok (some i))

/-- **C94 (fills taken back).** After any fills of a dense histogram of integers that do not overflow, fills at the same coordinates with the opposite weights, the last one first, do not overflow either and
restore the histogram exactly. -/
theorem C94_undo {h h1 : VecHistogram A (MInt τ)} {hist hist' : List (Axis.Coordinate A × Option (MInt τ))} (r : h.callAll (numCalls hist) = (h1, none))
    (hb : TakesBack hist.reverse hist') : h1.callAll (numCalls hist') = (h, none) := by
  have hax : h1.axes = h.axes := by
    have := VecHistogram.callAll_ok (h := h) (calls := numCalls hist) (by rw [r])
    rw [r] at this
    have this : h1 = h.callAllCaught (numCalls hist) := this
    rw [this]; exact VecHistogram.callAllCaught_axes ..
  have hn := (VecHistogram.callAll_none_iff h (numCalls hist)).1 (by rw [r])
  have dom : ∀ i, h1.valueAtIndex i = none ↔ h.valueAtIndex i = none := by
    intro i
    have := VecHistogram.callAll_ok (h := h) (calls := numCalls hist) (by rw [r])
    rw [r] at this
    have this : h1 = h.callAllCaught (numCalls hist) := this
    rw [this, VecHistogram.callAllCaught_get]
    cases h.valueAtIndex i <;> simp
  have h2 : (h1.callAll (numCalls hist')).2 = none := by
    rw [VecHistogram.callAll_none_iff, hax]
    refine ⟨back_total hb hn.1, fun i v' hv' => ?_⟩
    cases hv : h.valueAtIndex i with
    | none => rw [(dom i).2 hv] at hv'; cases hv'
    | some v =>
      obtain ⟨x, x1, x2⟩ := VecHistogram.callAll_seq r i hv
      rw [hv'] at x1; cases x1
      rw [back_in hb i x2]
  rcases hr : h1.callAll (numCalls hist') with ⟨h3, o⟩
  rw [hr] at h2
  have h2 : o = none := h2
  subst h2
  congr 1
  have hc := VecHistogram.callAll_ok (h := h1) (calls := numCalls hist') (by rw [hr])
  rw [hr] at hc
  have hc : h3 = h1.callAllCaught (numCalls hist') := hc
  apply VecHistogram.ext_get (by rw [hc, VecHistogram.callAllCaught_axes, hax])
  intro i
  cases hv : h.valueAtIndex i with
  | none =>
    rw [hc, VecHistogram.callAllCaught_get, (dom i).2 hv]; rfl
  | some v =>
    obtain ⟨x, x1, x2⟩ := VecHistogram.callAll_seq r i hv
    obtain ⟨y, y1, y2⟩ := VecHistogram.callAll_seq hr i x1
    rw [hax, back_in hb i x2] at y2
    cases y2
    exact y1

/-- **C94 (fills taken back in any order).** In any other order the fills that take back others may overflow in a build with overflow checks, but if they do not the histogram is restored exactly. -/
theorem C94_undo_any {h h1 h2 : VecHistogram A (MInt τ)} {hist hist' : List (Axis.Coordinate A × Option (MInt τ))} (r : h.callAll (numCalls hist) = (h1, none))
    {back : List (Axis.Coordinate A × Option (MInt τ))} (hb : TakesBack hist.reverse back) (hp : back.Perm hist') (r' : h1.callAll (numCalls hist') = (h2, none)) : h2 = h :=
  (C29_int_dense hp (C94_undo r hb) r').symm

/-- **C94 (fills taken back, sparse).** The same for a sparse histogram, except that the bins that were filled meanwhile stay present: their value is what it was, and 0 if they had not been filled before. -/
theorem C94_undo_sparse {h h1 : HashHistogram A (MInt τ)} {hist hist' : List (Axis.Coordinate A × Option (MInt τ))} (r : h.callAll (numCalls hist) = (h1, none))
    (hb : TakesBack hist.reverse hist') :
    ∃ h2, h1.callAll (numCalls hist') = (h2, none) ∧ h2.axes = h.axes ∧
      ∀ i, ((h2.valueAtIndex i).map MInt.val).getD 0 = ((h.valueAtIndex i).map MInt.val).getD 0 ∧ (h2.valueAtIndex i = none ↔ h1.valueAtIndex i = none) := by
  have hax : h1.axes = h.axes := by
    have := HashHistogram.callAll_ok (h := h) (calls := numCalls hist) (by rw [r])
    rw [r] at this
    have this : h1 = h.callAllCaught (numCalls hist) := this
    rw [this]; exact HashHistogram.callAllCaught_axes ..
  have hn := (HashHistogram.callAll_none_iff h (numCalls hist)).1 (by rw [r])
  have h2 : (h1.callAll (numCalls hist')).2 = none := by
    rw [HashHistogram.callAll_none_iff, hax]
    refine ⟨back_total hb hn.1, fun i => ?_⟩
    rw [back_in hb i (HashHistogram.callAll_seq r i)]
  rcases hr : h1.callAll (numCalls hist') with ⟨h3, o⟩
  rw [hr] at h2
  have h2 : o = none := h2
  subst h2
  have hc := HashHistogram.callAll_ok (h := h1) (calls := numCalls hist') (by rw [hr])
  rw [hr] at hc
  have hc : h3 = h1.callAllCaught (numCalls hist') := hc
  refine ⟨h3, rfl, by rw [hc, HashHistogram.callAllCaught_axes, hax], fun i => ⟨?_, ?_⟩⟩
  · have e := HashHistogram.callAll_seq hr i
    rw [hax, back_in hb i (HashHistogram.callAll_seq r i)] at e
    have e := congrArg Prod.fst e
    have e : (h.valueAtIndex i).getD RDefault.dflt = (h3.valueAtIndex i).getD RDefault.dflt := e
    have z : ∀ o : Option (MInt τ), (o.map MInt.val).getD 0 = (o.getD RDefault.dflt).val := by rintro (_ | x) <;> rfl
    rw [z, z, e]
  · rw [HashHistogram.callAll_isSome hr]
    constructor
    · exact fun h => h.1
    · intro h0
      refine ⟨h0, ?_⟩
      have e0 := ((HashHistogram.callAll_isSome r i).1 h0).2
      rw [callsIn_numCalls] at e0 ⊢
      rw [hax]
      have hf := hb.filter fun c => decide (Axis.index h.axes c = .ok (some i))
      rw [List.filter_reverse] at hf
      have e0 := List.map_eq_nil_iff.1 e0
      rw [e0, List.reverse_nil] at hf
      rw [List.forall₂_nil_left_iff.1 hf]; rfl

/-! ## Sparse histograms and floats -/

theorem snapshots_sparse {V M : Type} [AddCommMonoid M] {μ : V → M} {weight : Call V (Axis.Coordinate A) → M} [PEq A] [ROps V] [LawfulROps V] [RDefault V] (hμ : SubLike μ) {axes : A} {n : Nat}
    (hrefl : PEq.peq axes axes = true) {calls : List (Call V (Axis.Coordinate A))} (hw : ∀ call ∈ calls, Adds μ call.on (weight call))
    {s t f : HashHistogram A V} (ok : s.Ok n) (hax : s.axes = axes) (rt : s.callAll calls = (t, none)) (rf : (HashHistogram.new axes).callAll calls = (f, none)) :
    (∀ i, ROps.op .sub ((t.valueAtIndex i).getD RDefault.dflt) ((s.valueAtIndex i).getD RDefault.dflt) = .ok ((f.valueAtIndex i).getD RDefault.dflt)) ∧
    ∀ ko : HashHistogram.KeyOrder t s, ∃ m, t.opBorrow .sub s ko = .ok (.ok m) ∧ m.axes = axes ∧
      ∀ i, (m.valueAtIndex i).getD RDefault.dflt = (f.valueAtIndex i).getD RDefault.dflt ∧ (m.valueAtIndex i = none ↔ t.valueAtIndex i = none) := by
  obtain ⟨ot, at'⟩ := HashHistogram.callAll_none_ok ok rt
  have key : ∀ i, ROps.op .sub ((t.valueAtIndex i).getD RDefault.dflt) ((s.valueAtIndex i).getD RDefault.dflt) = .ok ((f.valueAtIndex i).getD RDefault.dflt) := by
    intro i
    apply hμ.sub
    have e1 := HashHistogram.callAll_measure hw rt i
    have e2 := HashHistogram.callAll_measure hw rf i
    have e0 : ((HashHistogram.new axes : HashHistogram A V).valueAtIndex i).getD RDefault.dflt = RDefault.dflt := rfl
    rw [e0, hμ.dflt, zero_add] at e2
    rw [e1, e2, hax]; rfl
  refine ⟨key, fun ko => ?_⟩
  have hpe : PEq.peq t.axes s.axes = true := by rw [at', hax]; exact hrefl
  obtain ⟨m, hm⟩ : ∃ m, t.opBorrow .sub s ko = .ok (.ok m) := by
    exact (C35_sparse_exact .sub ot ok hpe ko ⟨s.values.entries, List.Perm.refl _⟩).1.2 fun i _ => ⟨_, key i⟩
  obtain ⟨-, m2, m3⟩ := C33_binwise_sparse .sub ot ok ko hm
  refine ⟨m, hm, by rw [m2, at', hax], fun i => ?_⟩
  have hst : t.valueAtIndex i = none → s.valueAtIndex i = none := fun h => ((HashHistogram.callAll_isSome rt i).1 h).1
  have := m3 i
  have k := key i
  cases ht : t.valueAtIndex i with
  | none =>
    rw [ht, hst ht] at this k
    have e : m.valueAtIndex i = none := (Except.ok.inj this).symm
    refine ⟨?_, by simp [e]⟩
    have e1 := HashHistogram.callAll_isSome rt i
    have hf : f.valueAtIndex i = none := by
      rw [HashHistogram.callAll_isSome rf i]
      refine ⟨rfl, ?_⟩
      have := (e1.1 ht).2
      rwa [hax] at this
    rw [e, hf]
  | some z =>
    rw [ht] at this k
    have e : HashHistogram.merged .sub (some z) (s.valueAtIndex i) = (ROps.op .sub z ((s.valueAtIndex i).getD RDefault.dflt)).map some := by
      cases s.valueAtIndex i <;> rfl
    rw [e] at this
    have k : ROps.op .sub z ((s.valueAtIndex i).getD RDefault.dflt) = .ok ((f.valueAtIndex i).getD RDefault.dflt) := k
    rw [k] at this
    have e : m.valueAtIndex i = some ((f.valueAtIndex i).getD RDefault.dflt) := (Except.ok.inj this).symm
    rw [e]
    exact ⟨rfl, by simp⟩

/-- **C94 (snapshots, sparse).** For sparse histograms `&t - &s` has the values of the histogram `f` of just the fills in between (0 where a bin is missing), whatever the order in which the keys are gone through;
it has all the bins that `t` has, so as a map it is that of `f` exactly if every bin that was filled before the snapshot was filled again after it. `t - &s` and `t -= &s` give the same. -/
theorem C94_snapshots_sparse [PEq A] {axes : A} {n : Nat} (hrefl : PEq.peq axes axes = true) {s t f : HashHistogram A (MInt τ)}
    (ok : s.Ok n) (hax : s.axes = axes) (hist : List (Axis.Coordinate A × Option (MInt τ)))
    (rt : s.callAll (numCalls hist) = (t, none)) (rf : (HashHistogram.new axes).callAll (numCalls hist) = (f, none)) (ko : HashHistogram.KeyOrder t s) (ro : s.values.Order) :
    ∃ m m', t.opBorrow .sub s ko = .ok (.ok m) ∧ t.opOwned .sub s ro = .ok (.ok m') ∧ t.opAssign .sub s ro = (m', none) ∧ m.axes = axes ∧ m'.axes = axes ∧
      (∀ i, m'.valueAtIndex i = m.valueAtIndex i) ∧
      (∀ i, ((m.valueAtIndex i).map MInt.val).getD 0 = ((f.valueAtIndex i).map MInt.val).getD 0 ∧ (m.valueAtIndex i = none ↔ t.valueAtIndex i = none)) ∧
      ((∀ i, m.valueAtIndex i = f.valueAtIndex i) ↔ ∀ i, s.valueAtIndex i ≠ none → f.valueAtIndex i ≠ none) := by
  have key : (∀ i, ROps.op .sub ((t.valueAtIndex i).getD RDefault.dflt) ((s.valueAtIndex i).getD RDefault.dflt) = .ok ((f.valueAtIndex i).getD RDefault.dflt)) ∧
    ∀ ko : HashHistogram.KeyOrder t s, ∃ m, t.opBorrow .sub s ko = .ok (.ok m) ∧ m.axes = axes ∧
      ∀ i, (m.valueAtIndex i).getD RDefault.dflt = (f.valueAtIndex i).getD RDefault.dflt ∧ (m.valueAtIndex i = none ↔ t.valueAtIndex i = none) := by
    cases hc : Cfg.checked
    · exact snapshots_sparse (int_subLike_release hc) hrefl ((numCalls_weights hist).1 hc) ok hax rt rf
    · exact snapshots_sparse int_subLike_checked hrefl ((numCalls_weights hist).2 hc) ok hax rt rf
  obtain ⟨k1, k2⟩ := key
  obtain ⟨m, m1, m2, m3⟩ := k2 ko
  obtain ⟨ot, at'⟩ := HashHistogram.callAll_none_ok ok rt
  have hpe : PEq.peq t.axes s.axes = true := by rw [at', hax]; exact hrefl
  obtain ⟨-, c2, c3, c4⟩ := C35_sparse_exact .sub ot ok hpe ko ro
  obtain ⟨m', hm'⟩ := c2.2 fun i _ => ⟨_, k1 i⟩
  obtain ⟨d1, d2⟩ := c4 m m' m1 hm'
  have z : ∀ o : Option (MInt τ), (o.map MInt.val).getD 0 = (o.getD RDefault.dflt).val := by rintro (_ | x) <;> rfl
  have same : ∀ i, m'.valueAtIndex i = m.valueAtIndex i := by
    intro i
    by_contra hne
    obtain ⟨x, x1, x2, x3⟩ := (d2 i).1 (fun h => hne h.symm)
    apply x3
    show MInt.arith (x.val - 0) = .ok x
    unfold MInt.arith
    rw [dif_pos (by rw [Int.sub_zero]; exact ⟨x.min_le, x.le_max⟩)]
    congr 1
    exact MInt.ext (Int.sub_zero _)
  refine ⟨m, m', m1, hm', (c3 m').1 hm', m2, by rw [← d1, m2], same, fun i => ⟨?_, (m3 i).2⟩, ?_⟩
  · rw [z, z, (m3 i).1]
  · have ht : ∀ i, t.valueAtIndex i = none ↔ s.valueAtIndex i = none ∧ f.valueAtIndex i = none := by
      intro i
      rw [HashHistogram.callAll_isSome rt, HashHistogram.callAll_isSome rf, hax]
      exact ⟨fun h => ⟨h.1, rfl, h.2⟩, fun h => ⟨h.1, h.2.2⟩⟩
    constructor
    · intro h i hs hf
      have := ((m3 i).2.1 ((h i).trans hf))
      exact hs ((ht i).1 this).1
    · intro h i
      cases hf : f.valueAtIndex i with
      | none =>
        rw [(m3 i).2, ht]
        exact ⟨by by_contra hs; exact h i hs hf, hf⟩
      | some y =>
        have h1 := (m3 i).1
        cases hm : m.valueAtIndex i with
        | none => have := ((ht i).1 ((m3 i).2.1 hm)).2; rw [hf] at this; cases this
        | some x =>
          rw [hm, hf] at h1
          exact congrArg some h1
end

section
variable [cfg : Cfg] {F : FFmt} {A : Type} [Axis A] {axes : A} {n : Nat} {covers : Axis.Interval A → Axis.Coordinate A → Prop} {dom : Axis.Coordinate A → Prop} {e : ℤ}

theorem OnGrid.neg {x : ℚ} (hx : OnGrid e x) : OnGrid e (-x) := by
  obtain ⟨k, rfl⟩ := hx
  exact ⟨-k, by push_cast; ring⟩

theorem Flt.sub_grid {a b : Flt F} (h1 : F.qmin ≤ e) (h2 : e + F.p ≤ F.emax) (ha : a.isFin) (hb : b.isFin)
    (hx : OnGrid e (a.val - b.val)) (hr : |a.val - b.val| ≤ (2 : ℚ) ^ (e + F.p)) : (Flt.sub a b).isFin ∧ (Flt.sub a b).val = a.val - b.val := by
  have rep := FFmt.rep_grid h1 h2 hx hr
  obtain ⟨f1, f2⟩ := (Flt.sub_rounds ha hb).fin_of rep.le_maxFin
  exact ⟨f1, by rw [f2, F.rs_of_rep rep.repU]⟩

/-- **C94 (snapshots of float histograms).** Fill a histogram of floats with weights that are multiples of `2^e` (whole numbers if `e = 0`), take a snapshot, and fill on. The difference `&t - &s` always exists, and
in every bin whose weights' absolute values add up to at most `2^(e+p)` (`2^53` for whole numbers and `f64`) it is exactly the sum of the weights since the snapshot. -/
theorem C94_float [PEq A] (he : F.qmin ≤ e ∧ e + F.p ≤ F.emax) (hf : FaithfulAxis axes n covers dom) (hrefl : PEq.peq axes axes = true) {h : VecHistogram A (Flt F)} (hnew : VecHistogram.new axes = .ok h)
    (hist₁ hist₂ : List (Axis.Coordinate A × Option (Flt F))) (hd : ∀ cw ∈ hist₁ ++ hist₂, dom cw.1) (hfin : ∀ cw ∈ hist₁ ++ hist₂, ∀ w, cw.2 = some w → w.isFin)
    (hg : ∀ cw ∈ hist₁ ++ hist₂, OnGrid e (fltWeight cw)) :
    ∃ s t m items, h.callAll (numCalls hist₁) = (s, none) ∧ s.callAll (numCalls hist₂) = (t, none) ∧ t.opBorrow .sub s = .ok (.ok m) ∧ m.iter = .ok items ∧ items.length = n ∧
      ∀ i it, items[i]? = some it → it.index = i ∧ Axis.bin axes i = .ok (some it.bin) ∧
        (fltAbsIn covers it.bin (hist₁ ++ hist₂) ≤ (2 : ℚ) ^ (e + F.p) → it.value.isFin ∧ it.value.val = fltTotalIn covers it.bin hist₂) := by
  classical
  have sub1 : ∀ cw ∈ hist₁, cw ∈ hist₁ ++ hist₂ := fun cw h => List.mem_append.2 (.inl h)
  have run : ∀ hist : List (Axis.Coordinate A × Option (Flt F)), ∀ m, (MergePlan.share hist).numCalls.run h = .ok (.ok m) → h.callAll (numCalls hist) = (m, none) := by
    intro hist m hm
    simp only [MergePlan.numCalls, MergePlan.run] at hm
    rcases hc : h.callAll (numCalls hist) with ⟨h', _ | p⟩
    · rw [hc] at hm; cases hm; rfl
    · rw [hc] at hm; cases hm
  obtain ⟨s, s1, s2, s3, s4⟩ := grid_plan he hf hrefl hnew (.share hist₁) (fun cw h => hd cw (sub1 cw h)) (fun cw h => hfin cw (sub1 cw h)) (fun cw h => hg cw (sub1 cw h))
  obtain ⟨t, t1, t2, t3, t4⟩ := grid_plan he hf hrefl hnew (.share (hist₁ ++ hist₂)) hd hfin hg
  have rs := run _ _ s1
  have rt := run _ _ t1
  have e12 : numCalls (hist₁ ++ hist₂) = numCalls hist₁ ++ numCalls hist₂ := List.map_append ..
  rw [e12, VecHistogram.callAll_append, rs] at rt
  rcases C33_binwise_dense .sub t2 s2 (by rw [t3, s3]; exact hrefl) with ⟨m, m1, m2, m3, m4⟩ | ⟨p, i, x, y, -, -, -, hp⟩
  · obtain ⟨items, hit, hlen, hall, -⟩ := C38_iter m2
    refine ⟨s, t, m, items, rs, rt, m1, hit, hlen, ?_⟩
    intro i it hi
    have hin : i < n := by rw [← hlen]; exact (List.getElem?_eq_some_iff.1 hi).1
    obtain ⟨b, v, h1, h2, h3⟩ := hall i hin
    rw [hi] at h1
    cases h1
    rw [m3, t3] at h2
    refine ⟨rfl, h2, fun hr => ?_⟩
    have hr : fltAbsIn covers b (hist₁ ++ hist₂) ≤ (2 : ℚ) ^ (e + F.p) := hr
    obtain ⟨x, y, z, l1, l2, l3, l4⟩ := m4 i hin
    obtain ⟨x', x1, x2⟩ := t4 i b hin h2
    obtain ⟨y', y1, y2⟩ := s4 i b hin h2
    rw [l1] at x1; rw [l2] at y1; cases x1; cases y1
    have hz : z = Flt.sub x y := (Except.ok.inj l3).symm
    rw [h3, hz] at l4
    have hv : v = Flt.sub x y := Option.some.inj l4
    have e1 : fltTotalIn covers b (hist₁ ++ hist₂) = fltTotalIn covers b hist₁ + fltTotalIn covers b hist₂ := by
      simp only [fltTotalIn, List.filter_append, List.map_append, List.sum_append]
    have e2 : fltAbsIn covers b (hist₁ ++ hist₂) = fltAbsIn covers b hist₁ + fltAbsIn covers b hist₂ := by
      simp only [fltAbsIn, List.filter_append, List.map_append, List.sum_append]
    have nn : ∀ q : List (Axis.Coordinate A × Option (Flt F)), 0 ≤ fltAbsIn covers b q := fun q => sum_nonneg' _ _ (fun _ _ => abs_nonneg _)
    have le : ∀ q : List (Axis.Coordinate A × Option (Flt F)), |fltTotalIn covers b q| ≤ fltAbsIn covers b q := fun q => abs_sum_le_sum_abs' _ _
    obtain ⟨f1, v1⟩ := x2 hr
    obtain ⟨f2, v2⟩ := y2 (by show fltAbsIn covers b hist₁ ≤ _; linarith [nn hist₂])
    have v1 : x.val = fltTotalIn covers b (hist₁ ++ hist₂) := v1
    have v2 : y.val = fltTotalIn covers b hist₁ := v2
    have ed : x.val - y.val = fltTotalIn covers b hist₂ := by rw [v1, v2, e1]; ring
    have := Flt.sub_grid he.1 he.2 f1 f2 (e := e) (by rw [ed]; exact OnGrid.sum fun cw hc => hg cw (List.mem_append.2 (.inr (List.mem_of_mem_filter hc))))
      (by rw [ed]; linarith [le hist₂, nn hist₁])
    rw [ed, ← hv] at this
    exact this
  · cases hp
end

/-! ## The limits -/

section
attribute [local instance] dbg64

/-- Floats: a snapshot of a bin that holds `2^53`, and then one fill: the difference is 0. -/
theorem C94_counterexample_float :
    ∃ (h s t m : VecHistogram (CategoryNoFlow String) F64), VecHistogram.new (CategoryNoFlow.new ["a"]) = .ok h ∧ h.callAll (numCalls [("a", some (f64 (2 ^ 53)))]) = (s, none) ∧
      s.callAll (numCalls [("a", none)]) = (t, none) ∧ t.opBorrow .sub s = .ok (.ok m) ∧ m.value "a" = .ok (some (f64 0)) := by
  refine ⟨⟨CategoryNoFlow.new ["a"], [RDefault.dflt]⟩, ⟨CategoryNoFlow.new ["a"], [Flt.add RDefault.dflt (f64 (2 ^ 53))]⟩,
    ⟨CategoryNoFlow.new ["a"], [Flt.add (Flt.add RDefault.dflt (f64 (2 ^ 53))) (@one F64 _ _)]⟩,
    ⟨CategoryNoFlow.new ["a"], [Flt.sub (Flt.add (Flt.add RDefault.dflt (f64 (2 ^ 53))) (@one F64 _ _)) (Flt.add RDefault.dflt (f64 (2 ^ 53)))]⟩, rfl, ?_, ?_, ?_, ?_⟩
  · rfl
  · rfl
  · rfl
  · decide +kernel

/-- Floats: `2^53` filled, then `1`, then both taken back: the bin holds `-1` if they are taken back in the order in which they were filled. -/
theorem C94_counterexample_float_undo :
    ∃ (h : VecHistogram (CategoryNoFlow String) F64), VecHistogram.new (CategoryNoFlow.new ["a"]) = .ok h ∧
      (h.callAll (numCalls [("a", some (f64 (2 ^ 53))), ("a", some (f64 1)), ("a", some (f64 (-(2 ^ 53)))), ("a", some (f64 (-1)))])).1.value "a" = .ok (some (f64 (-1))) := by
  refine ⟨_, rfl, ?_⟩
  decide +kernel

/-- Signed integers with overflow checks: from `-100` the fills in between can go up by more than the largest value; the histogram of just them and the difference of the snapshots overflow. -/
theorem C94_counterexample_signed :
    ∃ (h s t : VecHistogram (CategoryNoFlow String) (MInt .i8)) (hist : List (String × Option (MInt .i8))), VecHistogram.new (CategoryNoFlow.new ["a"]) = .ok h ∧
      h.callAll (numCalls [("a", some (.lit (-100)))]) = (s, none) ∧ s.callAll (numCalls hist) = (t, none) ∧ (h.callAll (numCalls hist)).2 = some .overflow ∧
      t.opBorrow .sub s = .error .overflow := by
  refine ⟨⟨CategoryNoFlow.new ["a"], [.lit 0]⟩, ⟨CategoryNoFlow.new ["a"], [.lit (-100)]⟩, ⟨CategoryNoFlow.new ["a"], [.lit 100]⟩, [("a", some (.lit 100)), ("a", some (.lit 100))], rfl, ?_, ?_, ?_, ?_⟩ <;>
    rfl

/-- Signed integers with overflow checks: fills taken back in another order than the last first may overflow. -/
theorem C94_counterexample_order :
    ∃ (h h1 : VecHistogram (CategoryNoFlow String) (MInt .i8)) (hist hist' : List (String × Option (MInt .i8))), VecHistogram.new (CategoryNoFlow.new ["a"]) = .ok h ∧
      h.callAll (numCalls hist) = (h1, none) ∧ TakesBack hist hist' ∧ (h1.callAll (numCalls hist')).2 = some .overflow := by
  refine ⟨⟨CategoryNoFlow.new ["a"], [.lit 0]⟩, ⟨CategoryNoFlow.new ["a"], [.lit 100]⟩, [("a", some (.lit (-100))), ("a", some (.lit 100)), ("a", some (.lit 100))],
    [("a", some (.lit 100)), ("a", some (.lit (-100))), ("a", some (.lit (-100)))], rfl, ?_, ?_, ?_⟩
  · rfl
  · exact .cons ⟨rfl, rfl⟩ (.cons ⟨rfl, rfl⟩ (.cons ⟨rfl, rfl⟩ .nil))
  · decide +kernel

/-- Sparse histograms: the bin that was filled before the snapshot and not after it is present in the difference with value 0, so the difference is not `==` to the histogram of the fills in between. -/
theorem C94_counterexample_sparse :
    ∃ (s t f : HashHistogram (CategoryNoFlow String) (MInt .i8)), (HashHistogram.new (CategoryNoFlow.new ["a", "b"])).callAll (numCalls [("a", none)]) = (s, none) ∧
      s.callAll (numCalls [("b", none)]) = (t, none) ∧ (HashHistogram.new (CategoryNoFlow.new ["a", "b"])).callAll (numCalls [("b", none)]) = (f, none) ∧
      ∀ ko m, t.opBorrow .sub s ko = .ok (.ok m) → m.valueAtIndex 0 = some (.lit 0) ∧ f.valueAtIndex 0 = none := by
  have hf : FaithfulAxis (CategoryNoFlow.new ["a", "b"]) 2 (SingleValueBinInterval.Covers ["a", "b"]) (fun _ => True) := C51_category_noflow ["a", "b"] (by decide) (by decide)
  have ok0 : (HashHistogram.new (CategoryNoFlow.new ["a", "b"]) : HashHistogram _ (MInt .i8)).Ok 2 := ⟨hf.lawful, HMap.nodup_empty, by simp [HashHistogram.new, HMap.empty, HMap.keys]⟩
  refine ⟨_, _, _, rfl, rfl, rfl, ?_⟩
  intro ko m hm
  obtain ⟨ok1, -⟩ := HashHistogram.callAll_none_ok ok0 (calls := numCalls [("a", none)]) rfl
  obtain ⟨ok2, -⟩ := HashHistogram.callAll_none_ok ok1 (calls := numCalls [("b", none)]) rfl
  obtain ⟨-, -, h⟩ := C33_binwise_sparse .sub ok2 ok1 ko hm
  have := h 0
  refine ⟨(Except.ok.inj this).symm.trans ?_, rfl⟩
  rfl
end
end NdHist
