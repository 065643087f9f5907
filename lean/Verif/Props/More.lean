import Verif.SpecMore
import Verif.Props.Ratio
import Verif.Props.Arith
import Verif.Props.Threads
import Verif.Props.ThreadsValue
import Verif.Props.MergeFill
import Verif.Props.BatchMean
import Verif.Props.WrapOps
import Verif.Props.FloatValue
/-!
# C110: more data, and data of larger weights, never lower a bin
-/
namespace NdHist
open RNum

section
variable [Cfg] {A V : Type} [Axis A]

omit [Cfg] in
theorem fillSeq_exceeds {C C' : Type} {le : V → V → Prop} {R : Call V C → Call V C' → Prop} {calls : List (Call V C)} {calls' : List (Call V C')}
    (hstep : ∀ c c' v v' w', R c c' → le v v' → c'.on v' = (w', none) → ∃ w, c.on v = (w, none) ∧ le w w')
    (hgrow : ∀ c' ∈ calls', ∀ v v' w', le v v' → c'.on v' = (w', none) → le v w')
    (hsub : Exceeds R calls calls') {v v' w' : V} (hv : le v v') (h : fillSeq calls' v' = (w', none)) : ∃ w, fillSeq calls v = (w, none) ∧ le w w' := by
  induction hsub generalizing v v' with
  | @nil l =>
    refine ⟨v, rfl, ?_⟩
    induction l generalizing v' with
    | nil => cases h; exact hv
    | cons c l ih =>
      unfold fillSeq at h
      rcases hc : c.on v' with ⟨x, _ | p⟩
      · rw [hc] at h
        exact ih (fun c' hc' => hgrow c' (List.mem_cons_of_mem _ hc')) (hgrow c (by simp) v v' x hv hc) h
      · rw [hc] at h; cases h
  | @cons c c' l l' hR _ ih =>
    unfold fillSeq at h
    rcases hc : c'.on v' with ⟨x, _ | p⟩
    · rw [hc] at h
      obtain ⟨y, hy1, hy2⟩ := hstep c c' v v' x hR hv hc
      obtain ⟨w, w1, w2⟩ := ih (fun c' hc' => hgrow c' (List.mem_cons_of_mem _ hc')) hy2 h
      exact ⟨w, by unfold fillSeq; rw [hy1]; exact w1, w2⟩
    · rw [hc] at h; cases h
  | @cons_right c' l l' _ ih =>
    unfold fillSeq at h
    rcases hc : c'.on v' with ⟨x, _ | p⟩
    · rw [hc] at h
      exact ih (fun c' hc' => hgrow c' (List.mem_cons_of_mem _ hc')) (hgrow c' (by simp) v v' x hv hc) h
    · rw [hc] at h; cases h

theorem callsIn_exceeds {R : Call V (Axis.Coordinate A) → Call V (Axis.Coordinate A) → Prop} (hcoord : ∀ c c', R c c' → c.coord = c'.coord) (axes : A) (i : Nat)
    {calls calls' : List (Call V (Axis.Coordinate A))} (hsub : Exceeds R calls calls') : Exceeds R (callsIn axes i calls) (callsIn axes i calls') := by
  induction hsub with
  | nil => exact .nil
  | @cons c c' l l' hR _ ih =>
    unfold callsIn at ih ⊢
    rw [List.filter_cons, List.filter_cons, hcoord c c' hR]
    split
    · exact .cons hR ih
    · exact ih
  | @cons_right c' l l' _ ih =>
    unfold callsIn at ih ⊢
    rw [List.filter_cons]
    split
    · exact .cons_right ih
    · exact ih

omit [Cfg] in
theorem exceeds_mem {α β : Type*} {R : α → β → Prop} {l : List α} {l' : List β} (h : Exceeds R l l') : ∀ a ∈ l, ∃ b ∈ l', R a b := by
  induction h with
  | nil => simp
  | @cons a b l l' hR _ ih =>
    intro x hx
    rcases List.mem_cons.1 hx with rfl | hx
    · exact ⟨b, by simp, hR⟩
    · obtain ⟨y, h1, h2⟩ := ih x hx; exact ⟨y, by simp [h1], h2⟩
  | cons_right _ ih =>
    intro x hx
    obtain ⟨y, h1, h2⟩ := ih x hx; exact ⟨y, by simp [h1], h2⟩

/-- **C110 (any values).** If a program ends without a panic on more data, it does on less, and every bin is below the one of the larger program: for any relation `le` of values that exceeding calls keep and additional ones too. -/
theorem C110_dense {le : V → V → Prop} {R : Call V (Axis.Coordinate A) → Call V (Axis.Coordinate A) → Prop} {calls calls' : List (Call V (Axis.Coordinate A))} (hcoord : ∀ c c', R c c' → c.coord = c'.coord)
    (hstep : ∀ c c' v v' w', R c c' → le v v' → c'.on v' = (w', none) → ∃ w, c.on v = (w, none) ∧ le w w')
    (hgrow : ∀ c' ∈ calls', ∀ v v' w', le v v' → c'.on v' = (w', none) → le v w') (hsub : Exceeds R calls calls')
    {h h' g' : VecHistogram A V} (hax : h.axes = h'.axes) (hv : ∀ i v, h.valueAtIndex i = some v → ∃ v', h'.valueAtIndex i = some v' ∧ le v v')
    (hr : h'.callAll calls' = (g', none)) :
    ∃ g, h.callAll calls = (g, none) ∧ ∀ i v, g.valueAtIndex i = some v → ∃ v', g'.valueAtIndex i = some v' ∧ le v v' := by
  have hn := (VecHistogram.callAll_none_iff h' calls').1 (by rw [hr])
  have seq : ∀ i v, h.valueAtIndex i = some v → ∃ v' w w', h'.valueAtIndex i = some v' ∧ g'.valueAtIndex i = some w' ∧ fillSeq (callsIn h.axes i calls) v = (w, none) ∧ le w w' := by
    intro i v hi
    obtain ⟨v', v1, v2⟩ := hv i v hi
    obtain ⟨w', w1, w2⟩ := VecHistogram.callAll_seq hr i v1
    obtain ⟨w, x1, x2⟩ := fillSeq_exceeds hstep (fun c' hc' => hgrow c' (List.mem_filter.1 hc').1) (callsIn_exceeds hcoord h'.axes i hsub) v2 w2
    exact ⟨v', w, w', v1, w1, by rw [hax]; exact x1, x2⟩
  have none : (h.callAll calls).2 = none := by
    refine (VecHistogram.callAll_none_iff h calls).2 ⟨fun c hc => ?_, fun i v hi => ?_⟩
    · obtain ⟨c', h1, h2⟩ := exceeds_mem hsub c hc
      rw [hax, hcoord c c' h2]; exact hn.1 c' h1
    · obtain ⟨v', w, w', -, -, e, -⟩ := seq i v hi
      rw [e]
  refine ⟨_, Prod.ext rfl none, fun i w hw => ?_⟩
  obtain ⟨v, hi⟩ : ∃ v, h.valueAtIndex i = some v := by
    have hlen := VecHistogram.callAllCaught_length h calls
    rw [← VecHistogram.callAll_ok none] at hlen
    have : i < h.values.length := by rw [← hlen]; exact (List.getElem?_eq_some_iff.1 hw).1
    exact ⟨_, List.getElem?_eq_getElem this⟩
  obtain ⟨v', x, x', -, h2, h3, h4⟩ := seq i v hi
  rw [bin_after none hi hw] at h3
  cases h3
  exact ⟨x', h2, h4⟩

/-- **C110 (any values, sparse).** A bin that the smaller program stored the larger one stored as well. -/
theorem C110_sparse [RDefault V] {le : V → V → Prop} {R : Call V (Axis.Coordinate A) → Call V (Axis.Coordinate A) → Prop} {calls calls' : List (Call V (Axis.Coordinate A))} (hcoord : ∀ c c', R c c' → c.coord = c'.coord)
    (hstep : ∀ c c' v v' w', R c c' → le v v' → c'.on v' = (w', none) → ∃ w, c.on v = (w, none) ∧ le w w')
    (hgrow : ∀ c' ∈ calls', ∀ v v' w', le v v' → c'.on v' = (w', none) → le v w') (hsub : Exceeds R calls calls') (h0 : le (RDefault.dflt : V) RDefault.dflt) {axes : A} {g' : HashHistogram A V}
    (hr : (HashHistogram.new axes : HashHistogram A V).callAll calls' = (g', none)) :
    ∃ g, (HashHistogram.new axes : HashHistogram A V).callAll calls = (g, none) ∧ ∀ i v, g.valueAtIndex i = some v → ∃ v', g'.valueAtIndex i = some v' ∧ le v v' := by
  have hn := (HashHistogram.callAll_none_iff (HashHistogram.new axes : HashHistogram A V) calls').1 (by rw [hr])
  have seq : ∀ i, ∃ w, fillSeq (callsIn axes i calls) (RDefault.dflt : V) = (w, none) ∧ le w ((g'.valueAtIndex i).getD RDefault.dflt) := fun i =>
    fillSeq_exceeds hstep (fun c' hc' => hgrow c' (List.mem_filter.1 hc').1) (callsIn_exceeds hcoord axes i hsub) h0 (HashHistogram.callAll_seq hr i)
  have none : ((HashHistogram.new axes : HashHistogram A V).callAll calls).2 = none := by
    refine (HashHistogram.callAll_none_iff _ calls).2 ⟨fun c hc => ?_, fun i => ?_⟩
    · obtain ⟨c', h1, h2⟩ := exceeds_mem hsub c hc
      rw [hcoord c c' h2]; exact hn.1 c' h1
    · obtain ⟨w, e, -⟩ := seq i
      exact congrArg Prod.snd e
  refine ⟨_, Prod.ext rfl none, fun i w hw => ?_⟩
  have c1 := C28_sparse (V := V) axes calls i
  have c2 := C28_sparse (V := V) axes calls' i
  rw [← HashHistogram.callAll_ok none, hw] at c1
  rw [← HashHistogram.callAll_ok (by rw [hr]), hr] at c2
  have hne : callsIn axes i calls ≠ [] := by
    intro h0; rw [if_pos h0] at c1; cases c1
  have hne' : callsIn axes i calls' ≠ [] := by
    intro h0
    obtain ⟨c, hc⟩ := List.exists_mem_of_ne_nil _ hne
    obtain ⟨b, hb, -⟩ := exceeds_mem (callsIn_exceeds hcoord axes i hsub) c hc
    rw [h0] at hb; cases hb
  rw [if_neg hne'] at c2
  obtain ⟨x, x1, x2⟩ := seq i
  have s := HashHistogram.callAll_seq (h' := ((HashHistogram.new axes : HashHistogram A V).callAll calls).1) (Prod.ext rfl none) i
  rw [hw] at s
  have : (x, Option.none) = (w, Option.none) := x1.symm.trans s
  cases this
  rw [c2] at x2
  exact ⟨_, c2, x2⟩
end

/-! ## Numbers -/

/-- Addition of non-negative numbers is monotone: a smaller sum does not panic if a larger one does not, and is smaller. -/
structure MonoAdd (T : Type) [Cfg] [RNum T] : Prop where
  zero : POrd.ge (zero : T) (zero : T) = true
  self : ∀ a b : T, POrd.ge a b = true → POrd.ge a a = true
  one : POrd.ge (one : T) (RNum.zero : T) = true
  trans : ∀ a b c : T, POrd.ge a b = true → POrd.ge b c = true → POrd.ge a c = true
  add : ∀ v v' a b w' : T, POrd.ge v (RNum.zero : T) = true → POrd.ge v' v = true → POrd.ge a (RNum.zero : T) = true → POrd.ge b a = true → RNum.add v' b = .ok w' →
    ∃ w, RNum.add v a = .ok w ∧ POrd.ge w (RNum.zero : T) = true ∧ POrd.ge w' w = true
  grow : ∀ v b w : T, POrd.ge v (RNum.zero : T) = true → POrd.ge b (RNum.zero : T) = true → RNum.add v b = .ok w → POrd.ge w v = true ∧ POrd.ge w b = true

theorem flt_ge_self [Cfg] {F : FFmt} {v w : Flt F} (h : POrd.ge v w = true) : POrd.ge v v = true := by
  rw [LawfulPOrd.ge_iff] at h ⊢
  obtain ⟨x, y, e1, e2, e3⟩ := h
  exact ⟨x, x, e1, e1, le_rfl⟩

/-- C110: integers in a build with overflow checks -/
theorem C110_int [cfg : Cfg] (hc : Cfg.checked = true) (τ : IntTy) : MonoAdd (MInt τ) := by
  have ge : ∀ a b : MInt τ, POrd.ge a b = true ↔ b.val ≤ a.val := fun a b => by rw [MInt.ge_iff, decide_eq_true_iff]
  have z : (@zero (MInt τ) cfg _).val = 0 := rfl
  refine ⟨(ge _ _).2 le_rfl, fun a b _ => (ge _ _).2 le_rfl, (ge _ _).2 (by rw [z, MInt.one_val]; norm_num), fun a b c h1 h2 => (ge _ _).2 (((ge _ _).1 h2).trans ((ge _ _).1 h1)), ?_, ?_⟩
  · intro v v' a b w' h1 h2 h3 h4 h5
    rw [ge] at h1 h2 h3 h4
    rw [z] at h1 h3
    obtain ⟨k1, k2, k3⟩ := MInt.arith_checked hc h5
    have hmin := v.min_le
    refine ⟨_, MInt.arith_ok (by omega) (by omega), ?_, ?_⟩
    · rw [ge, z]; show 0 ≤ v.val + a.val; omega
    · rw [ge]; show v.val + a.val ≤ w'.val; omega
  · intro v b w h1 h2 h3
    rw [ge] at h1 h2
    rw [ge, ge]
    obtain ⟨k1, k2, k3⟩ := MInt.arith_checked hc h3
    rw [z] at h1 h2
    omega

/-- C110: floats, rounding, zeros of both signs and infinity included -/
theorem C110_float [Cfg] (F : FFmt) : MonoAdd (Flt F) := by
  refine ⟨?_, fun a b => flt_ge_self, ?_, fun a b c => Flt.ge_trans', ?_, ?_⟩
  · exact Flt.ge_zero_of_fin (x := Flt.zero false) trivial le_rfl
  · exact fltAdd_ge (C := Unit) (cw := ((), none)) (fun w h => by cases h)
  · intro v v' a b w' h1 h2 h3 h4 h5
    cases h5
    refine ⟨_, rfl, (Flt.add_ge h1 h3).2, Flt.ge_trans' ?_ (Flt.add_mono h1 h2 h3)⟩
    have hv' := Flt.ge_trans' h2 h1
    rw [Flt.add_comm' v' b, Flt.add_comm' v' a]
    exact Flt.add_mono h3 h4 hv'
  · intro v b w h1 h2 h3
    cases h3
    exact ⟨(Flt.add_ge h1 h2).1, by rw [Flt.add_comm']; exact (Flt.add_ge h2 h1).1⟩

section
variable [Cfg] {A T : Type} [Axis A] [RNum T]

/-- one call of `numCalls` -/
def oneCall {C : Type} (cw : C × Option T) : Call T C :=
  match cw.2 with
  | none => Call.fill cw.1
  | some w => Call.fillWith cw.1 w

theorem numCalls_eq {C : Type} (hist : List (C × Option T)) : numCalls hist = hist.map oneCall := rfl

theorem numCall_on {C : Type} (cw : C × Option T) : (oneCall cw).on = addAssign (givenWeight cw) := by
  obtain ⟨c, _ | w⟩ := cw <;> rfl

theorem numCall_coord {C : Type} (cw : C × Option T) : (oneCall cw).coord = cw.1 := by
  obtain ⟨c, _ | w⟩ := cw <;> rfl

theorem NoNegative.givenWeight_ge (hT : MonoAdd T) {C : Type} {hist : List (C × Option T)} (h : NoNegative hist) {cw : C × Option T} (hc : cw ∈ hist) : POrd.ge (givenWeight cw) (zero : T) = true := by
  unfold givenWeight
  cases hw : cw.2 with
  | none => exact hT.one
  | some w => exact h cw hc w hw

/-- both the value and the weights are ordered, and not negative -/
def numLe (v v' : T) : Prop := POrd.ge v (zero : T) = true ∧ POrd.ge v' v = true

omit [Cfg] in
theorem exceeds_mono {α β : Type*} {R S : α → β → Prop} {l : List α} {l' : List β} (h : Exceeds R l l') (hRS : ∀ a ∈ l, ∀ b ∈ l', R a b → S a b) : Exceeds S l l' := by
  induction h with
  | nil => exact .nil
  | cons hR _ ih => exact .cons (hRS _ (by simp) _ (by simp) hR) (ih fun a ha b hb => hRS a (by simp [ha]) b (by simp [hb]))
  | cons_right _ ih => exact .cons_right (ih fun a ha b hb => hRS a ha b (by simp [hb]))

omit [Cfg] in
/-- a relation of data as one of calls -/
theorem exceeds_map {α β α' β' : Type*} {R : α → β → Prop} (f : α → α') (g : β → β') {l : List α} {l' : List β} (h : Exceeds R l l') :
    Exceeds (fun x y => ∃ a ∈ l, ∃ b ∈ l', R a b ∧ x = f a ∧ y = g b) (l.map f) (l'.map g) := by
  have : Exceeds (fun a b => ∃ a' ∈ l, ∃ b' ∈ l', R a' b' ∧ f a = f a' ∧ g b = g b') l l' := exceeds_mono h fun a ha b hb hR => ⟨a, ha, b, hb, hR, rfl, rfl⟩
  unfold Exceeds at this ⊢
  rw [List.sublistForall₂_map_left_iff, List.sublistForall₂_map_right_iff]
  exact this

theorem num_step (hT : MonoAdd T) {C : Type} {hist hist' : List (C × Option T)} (hw : NoNegative hist) (c c' : Call T C) (v v' w' : T)
    (hR : ∃ a ∈ hist, ∃ b ∈ hist', Heavier a b ∧ c = oneCall a ∧ c' = oneCall b)
    (hv : numLe v v') (h : c'.on v' = (w', none)) : ∃ w, c.on v = (w, none) ∧ numLe w w' := by
  obtain ⟨a, ha, b, hb, ⟨-, hab⟩, rfl, rfl⟩ := hR
  rw [numCall_on] at h ⊢
  obtain ⟨w, e1, e2, e3⟩ := hT.add v v' _ _ w' hv.1 hv.2 (hw.givenWeight_ge hT ha) hab (addAssign_ok_iff.1 h)
  exact ⟨w, addAssign_ok_iff.2 e1, e2, e3⟩

theorem num_grow (hT : MonoAdd T) {C : Type} {hist' : List (C × Option T)} (hw : NoNegative hist') (c' : Call T C) (hc' : c' ∈ numCalls hist') (v v' w' : T)
    (hv : numLe v v') (h : c'.on v' = (w', none)) : numLe v w' := by
  rw [numCalls_eq] at hc'
  obtain ⟨b, hb, rfl⟩ := List.mem_map.1 hc'
  rw [numCall_on] at h
  exact ⟨hv.1, hT.trans _ _ _ (hT.grow v' _ w' (hT.trans _ _ _ hv.2 hv.1) (hw.givenWeight_ge hT hb) (addAssign_ok_iff.1 h)).1 hv.2⟩

theorem num_exceeds {C : Type} {hist hist' : List (C × Option T)} (hsub : Exceeds Heavier hist hist') :
    Exceeds (fun c c' : Call T C => ∃ a ∈ hist, ∃ b ∈ hist', Heavier a b ∧ c = oneCall a ∧ c' = oneCall b)
      (numCalls hist) (numCalls hist') := exceeds_map oneCall oneCall hsub

theorem num_coord {C : Type} {hist hist' : List (C × Option T)} (c c' : Call T C)
    (hR : ∃ a ∈ hist, ∃ b ∈ hist', Heavier a b ∧ c = oneCall a ∧ c' = oneCall b) : c.coord = c'.coord := by
  obtain ⟨a, ha, b, hb, ⟨hab, -⟩, rfl, rfl⟩ := hR
  rw [numCall_coord, numCall_coord, hab]

/-- **C110 (numbers).** Fill a histogram of non-negative numbers with non-negative weights. If some of the calls are left out and the weights of others lowered, no call panics that did not before, and no bin holds more than before. -/
theorem C110_numbers (hT : MonoAdd T) {hist hist' : List (Axis.Coordinate A × Option T)} (hw : NoNegative hist) (hw' : NoNegative hist') (hsub : Exceeds Heavier hist hist') {h g' : VecHistogram A T}
    (h0 : ∀ i v, h.valueAtIndex i = some v → POrd.ge v (zero : T) = true) (hr : h.callAll (numCalls hist') = (g', none)) :
    ∃ g, h.callAll (numCalls hist) = (g, none) ∧ ∀ i v, g.valueAtIndex i = some v → ∃ v', g'.valueAtIndex i = some v' ∧ POrd.ge v' v = true := by
  obtain ⟨g, g1, g2⟩ := C110_dense (le := numLe) num_coord (num_step hT hw) (num_grow hT hw') (num_exceeds hsub) (h := h) rfl
    (fun i v hi => ⟨v, hi, h0 i v hi, hT.self _ _ (h0 i v hi)⟩) hr
  exact ⟨g, g1, fun i v hv => by obtain ⟨v', k1, k2⟩ := g2 i v hv; exact ⟨v', k1, k2.2⟩⟩

/-- **C110 (numbers, sparse).** -/
theorem C110_numbers_sparse (hT : MonoAdd T) {hist hist' : List (Axis.Coordinate A × Option T)} (hw : NoNegative hist) (hw' : NoNegative hist') (hsub : Exceeds Heavier hist hist') {axes : A} {g' : HashHistogram A T}
    (hr : (HashHistogram.new axes : HashHistogram A T).callAll (numCalls hist') = (g', none)) :
    ∃ g, (HashHistogram.new axes : HashHistogram A T).callAll (numCalls hist) = (g, none) ∧ ∀ i v, g.valueAtIndex i = some v → ∃ v', g'.valueAtIndex i = some v' ∧ POrd.ge v' v = true := by
  obtain ⟨g, g1, g2⟩ := C110_sparse (le := numLe) num_coord (num_step hT hw) (num_grow hT hw') (num_exceeds hsub) ⟨hT.zero, hT.zero⟩ hr
  exact ⟨g, g1, fun i v hv => by obtain ⟨v', k1, k2⟩ := g2 i v hv; exact ⟨v', k1, k2.2⟩⟩

omit [Cfg] in
theorem exceeds_single {α : Type*} {R : α → α → Prop} {a : α} (hR : R a a) {l : List α} (h : a ∈ l) : Exceeds R [a] l := by
  induction l with
  | nil => cases h
  | cons b l ih =>
    rcases List.mem_cons.1 h with rfl | h
    · exact .cons hR .nil
    · exact .cons_right (ih h)

/-- **C110 (each weight).** A bin holds at least each of the weights that it has been filled with, rounding included. -/
theorem C110_each (hT : MonoAdd T) {hist : List (Axis.Coordinate A × Option T)} (hw : NoNegative hist) {h g : VecHistogram A T} (h0 : ∀ i v, h.valueAtIndex i = some v → POrd.ge v (zero : T) = true)
    (hr : h.callAll (numCalls hist) = (g, none)) {cw : Axis.Coordinate A × Option T} (hc : cw ∈ hist) {i : Nat} (hi : Axis.index h.axes cw.1 = .ok (some i)) {v : T} (hv : g.valueAtIndex i = some v) :
    POrd.ge v (givenWeight cw) = true := by
  have hcw := hw.givenWeight_ge hT hc
  obtain ⟨g1, r1, r2⟩ := C110_numbers hT (hist := [cw]) (fun c hc' => by rw [List.mem_singleton.1 hc']; exact hw cw hc) hw (exceeds_single ⟨rfl, hT.self _ _ hcw⟩ hc) h0 hr
  obtain ⟨u, hu⟩ : ∃ u, h.valueAtIndex i = some u := by
    have hlen := VecHistogram.callAllCaught_length h (numCalls hist)
    rw [← VecHistogram.callAll_ok (by rw [hr]), hr] at hlen
    have : i < h.values.length := by rw [← hlen]; exact (List.getElem?_eq_some_iff.1 hv).1
    exact ⟨_, List.getElem?_eq_getElem this⟩
  obtain ⟨x, x1, x2⟩ := VecHistogram.callAll_seq r1 i hu
  obtain ⟨v', k1, k2⟩ := r2 i x x1
  rw [hv] at k1; cases k1
  have e : callsIn h.axes i (numCalls [cw]) = [oneCall cw] := by
    rw [numCalls_eq]
    unfold callsIn
    rw [List.map_singleton, List.filter_cons_of_pos (by rw [numCall_coord]; simpa using hi)]
    rfl
  rw [e] at x2
  unfold fillSeq at x2
  rcases ho : (oneCall cw).on u with ⟨y, _ | p⟩
  · rw [ho] at x2
    have : y = x := congrArg Prod.fst x2
    subst this
    rw [numCall_on] at ho
    exact hT.trans _ _ _ k2 (hT.grow u _ y (h0 i u hu) hcw (addAssign_ok_iff.1 ho)).2
  · rw [ho] at x2; cases x2
end

/-! ## Weighted sums -/

/-- Squares of non-negative numbers are monotone. -/
structure MonoSq (T : Type) [Cfg] [RNum T] : Prop where
  one : ∃ q, mul (one : T) one = .ok q ∧ POrd.ge q (one : T) = true ∧ POrd.ge (one : T) q = true
  sq : ∀ a b q : T, POrd.ge a (zero : T) = true → POrd.ge b a = true → mul b b = .ok q → ∃ p, mul a a = .ok p ∧ POrd.ge p (zero : T) = true ∧ POrd.ge q p = true

theorem C110_int_sq [cfg : Cfg] (hc : Cfg.checked = true) (τ : IntTy) : MonoSq (MInt τ) := by
  have ge : ∀ a b : MInt τ, POrd.ge a b = true ↔ b.val ≤ a.val := fun a b => by rw [MInt.ge_iff, decide_eq_true_iff]
  have z : (@zero (MInt τ) cfg _).val = 0 := rfl
  have o : (@RNum.one (MInt τ) cfg _).val = 1 := MInt.one_val
  refine ⟨⟨RNum.one, ?_, (ge _ _).2 le_rfl, (ge _ _).2 le_rfl⟩, ?_⟩
  · rw [MInt.mul_def, o]
    have h1 := (@RNum.one (MInt τ) cfg _).min_le
    have h2 := (@RNum.one (MInt τ) cfg _).le_max
    rw [o] at h1 h2
    rw [MInt.arith_ok (by omega) (by omega)]
    congr 1
  · intro a b q h1 h2 h3
    rw [ge] at h1 h2
    rw [z] at h1
    obtain ⟨k1, k2, k3⟩ := MInt.arith_checked hc h3
    have m : a.val * a.val ≤ b.val * b.val := mul_le_mul h2 h2 h1 (h1.trans h2)
    have p : 0 ≤ a.val * a.val := mul_nonneg h1 h1
    have hmin : τ.min ≤ 0 := by have := (@zero (MInt τ) cfg _).min_le; rwa [z] at this
    refine ⟨_, MInt.arith_ok (by omega) (by omega), ?_, ?_⟩
    · rw [ge, z]; exact p
    · rw [ge]; show a.val * a.val ≤ q.val; omega

section
variable [Cfg] {F : FFmt}

theorem Flt.rounds_ge {r r' : ℚ} {x y : Flt F} (hx : Flt.Rounds r x) (hy : Flt.Rounds r' y) (h0 : 0 ≤ r') (h : r' ≤ r) : POrd.ge x y = true ∧ POrd.ge y (Flt.zero false) = true := by
  have hy0 : POrd.ge y (Flt.zero false) = true := by
    cases hy with
    | fin g1 g2 => exact Flt.ge_zero_of_fin g1 (by rw [g2]; exact F.rs_pos_le h0)
    | inf g => rw [decide_eq_false (not_lt.2 h0)]; simp [POrd.ge, POrd.pcmp, Flt.pcmp, Flt.zero]
  refine ⟨?_, hy0⟩
  cases hx with
  | inf h' => rw [decide_eq_false (not_lt.2 (h0.trans h))]; exact Flt.inf_ge hy0
  | fin h1 h2 =>
    cases hy with
    | fin g1 g2 =>
      rw [Flt.ge_fin h1 g1, h2, g2]
      simpa using F.rs_mono h
    | inf g =>
      exfalso
      have m := F.rs_mono h
      have p := F.rs_pos_le h0
      rw [abs_of_nonneg p] at g
      have := Flt.abs_val_le x
      rw [h2, abs_of_nonneg (p.trans m)] at this
      linarith

theorem Flt.sq_ge {a : Flt F} (h : a ≠ .nan) : POrd.ge (Flt.mul a a) (Flt.zero false) = true := by
  cases a with
  | nan => exact absurd rfl h
  | inf s => cases s <;> simp [Flt.mul, POrd.ge, POrd.pcmp, Flt.pcmp, Flt.zero]
  | fin s m hm => 
    have hr := Flt.mul_rounds (a := .fin s m hm) (b := .fin s m hm) trivial trivial
    exact (Flt.rounds_ge hr hr (mul_self_nonneg _) le_rfl).2

theorem C110_float_sq (F : FFmt) : MonoSq (Flt F) := by
  refine ⟨⟨_, rfl, ?_⟩, ?_⟩
  · obtain ⟨o1, o2⟩ := Flt.ofNat_spec (F := F) (n := 1) (Nat.one_le_two_pow)
    rw [Nat.cast_one] at o1 o2
    have hr := Flt.mul_rounds o1 o1
    rw [o2, mul_one] at hr
    have h1 : Flt.Rounds (1 : ℚ) (Flt.ofRat 1 : Flt F) := Flt.ofRat_rounds 1
    exact ⟨(Flt.rounds_ge hr h1 zero_le_one le_rfl).1, (Flt.rounds_ge h1 hr zero_le_one le_rfl).1⟩
  · intro a b q ha hab h
    cases h
    have hn : a ≠ .nan := by rintro rfl; simp [POrd.ge, POrd.pcmp, Flt.pcmp] at ha
    refine ⟨_, rfl, Flt.sq_ge hn, ?_⟩
    rcases Flt.ge_cases ha hab with rfl | ⟨b1, a1, a2, h3⟩
    · exact Flt.inf_ge (Flt.sq_ge hn)
    · exact (Flt.rounds_ge (Flt.mul_rounds b1 b1) (Flt.mul_rounds a1 a1) (mul_self_nonneg _) (mul_le_mul h3 h3 a2 (a2.trans h3))).1
end

section
variable [Cfg] {A T : Type} [Axis A] [RNum T]

/-- one call of `weightedSumCalls` -/
def wsCall {C : Type} (cw : C × Option T) : Call (WeightedSum T) C :=
  match cw.2 with
  | none => Call.fill cw.1
  | some w => Call.fillWith cw.1 w

theorem weightedSumCalls_eq {C : Type} (hist : List (C × Option T)) : weightedSumCalls hist = hist.map wsCall := rfl

theorem wsCall_coord {C : Type} (cw : C × Option T) : (wsCall cw).coord = cw.1 := by
  obtain ⟨c, _ | w⟩ := cw <;> rfl

/-- the summand of the second sum -/
def squareOf {C : Type} (cw : C × Option T) : Res T :=
  match cw.2 with
  | none => .ok one
  | some w => mul w w

theorem wsCall_adds {C : Type} (cw : C × Option T) : WsAdds (wsCall cw) (givenWeight cw) (squareOf cw) := by
  obtain ⟨c, _ | w⟩ := cw
  · exact wsAdds_fill c
  · exact wsAdds_fillWith c w

theorem squareOf_mono (hT : MonoAdd T) (hS : MonoSq T) {C : Type} {a b : C × Option T} (ha : POrd.ge (givenWeight a) (zero : T) = true) (hab : POrd.ge (givenWeight b) (givenWeight a) = true) {q : T} (h : squareOf b = .ok q) :
    ∃ p, squareOf a = .ok p ∧ POrd.ge p (zero : T) = true ∧ POrd.ge q p = true := by
  obtain ⟨o, o1, o2, o3⟩ := hS.one
  have hb : ∃ q', mul (givenWeight b) (givenWeight b) = .ok q' ∧ POrd.ge q q' = true := by
    obtain ⟨c, _ | w⟩ := b
    · cases h; exact ⟨o, o1, o3⟩
    · exact ⟨q, h, hT.self _ _ (hS.sq w w q (hT.trans _ _ _ hab ha) (hT.self _ _ (hT.trans _ _ _ hab ha)) h).choose_spec.2.2⟩
  obtain ⟨q', h1, h2⟩ := hb
  obtain ⟨p, p1, p2, p3⟩ := hS.sq _ _ q' ha hab h1
  obtain ⟨c, _ | w⟩ := a
  · have : p = o := by
      have e : (Except.ok p : Res T) = .ok o := p1.symm.trans o1
      cases e; rfl
    subst this
    exact ⟨one, rfl, hT.one, hT.trans _ _ _ h2 (hT.trans _ _ _ p3 o2)⟩
  · exact ⟨p, p1, p2, hT.trans _ _ _ h2 p3⟩

/-- **C110 (weighted sums).** The same for histograms of `WeightedSum`s: neither the sum nor the variance of a bin is larger with less data or smaller weights. -/
theorem C110_weighted_sum (hT : MonoAdd T) (hS : MonoSq T) {hist hist' : List (Axis.Coordinate A × Option T)} (hw : NoNegative hist) (hw' : NoNegative hist') (hsub : Exceeds Heavier hist hist') {h g' : VecHistogram A (WeightedSum T)}
    (h0 : ∀ i v, h.valueAtIndex i = some v → POrd.ge v.get (zero : T) = true ∧ POrd.ge v.variance (zero : T) = true) (hr : h.callAll (weightedSumCalls hist') = (g', none)) :
    ∃ g, h.callAll (weightedSumCalls hist) = (g, none) ∧
      ∀ i v, g.valueAtIndex i = some v → ∃ v', g'.valueAtIndex i = some v' ∧ POrd.ge v'.get v.get = true ∧ POrd.ge v'.variance v.variance = true := by
  have key : ∃ g, h.callAll (weightedSumCalls hist) = (g, none) ∧ ∀ i v, g.valueAtIndex i = some v → ∃ v', g'.valueAtIndex i = some v' ∧ (numLe v.sumw v'.sumw ∧ numLe v.sumw2 v'.sumw2) := by
    refine C110_dense (le := fun v v' : WeightedSum T => numLe v.sumw v'.sumw ∧ numLe v.sumw2 v'.sumw2)
      (R := fun c c' => ∃ a ∈ hist, ∃ b ∈ hist', Heavier a b ∧ c = wsCall a ∧ c' = wsCall b) (calls := weightedSumCalls hist) (calls' := weightedSumCalls hist') ?_ ?_ ?_
      (exceeds_map wsCall wsCall hsub) (h := h) rfl (fun i v hi => ⟨v, hi, ⟨(h0 i v hi).1, hT.self _ _ (h0 i v hi).1⟩, ⟨(h0 i v hi).2, hT.self _ _ (h0 i v hi).2⟩⟩) hr
    · rintro c c' ⟨a, ha, b, hb, ⟨hab, -⟩, rfl, rfl⟩
      rw [wsCall_coord, wsCall_coord, hab]
    · rintro c c' v v' w' ⟨a, ha, b, hb, ⟨-, hab⟩, rfl, rfl⟩ ⟨hv1, hv2⟩ ho
      obtain ⟨e1, q, e2, e3⟩ := (wsCall_adds b v' w').1 ho
      have ha0 := hw.givenWeight_ge hT ha
      obtain ⟨p, p1, p2, p3⟩ := squareOf_mono hT hS ha0 hab e2
      obtain ⟨x, x1, x2, x3⟩ := hT.add _ _ _ _ _ hv1.1 hv1.2 ha0 hab e1
      obtain ⟨y, y1, y2, y3⟩ := hT.add _ _ _ _ _ hv2.1 hv2.2 p2 p3 e3
      exact ⟨⟨x, y⟩, (wsCall_adds a v ⟨x, y⟩).2 ⟨x1, p, p1, y1⟩, ⟨x2, x3⟩, y2, y3⟩
    · intro c' hc' v v' w' ⟨hv1, hv2⟩ ho
      rw [weightedSumCalls_eq] at hc'
      obtain ⟨b, hb, rfl⟩ := List.mem_map.1 hc'
      obtain ⟨e1, q, e2, e3⟩ := (wsCall_adds b v' w').1 ho
      have hb0 := hw'.givenWeight_ge hT hb
      obtain ⟨p, p1, p2, p3⟩ := squareOf_mono hT hS hb0 (hT.self _ _ hb0) e2
      have hpq : POrd.ge q (zero : T) = true := hT.trans _ _ _ p3 p2
      exact ⟨⟨hv1.1, hT.trans _ _ _ (hT.grow _ _ _ (hT.trans _ _ _ hv1.2 hv1.1) hb0 e1).1 hv1.2⟩, hv2.1, hT.trans _ _ _ (hT.grow _ _ _ (hT.trans _ _ _ hv2.2 hv2.1) hpq e3).1 hv2.2⟩
  obtain ⟨g, g1, g2⟩ := key
  exact ⟨g, g1, fun i v hv => by obtain ⟨v', k1, k2⟩ := g2 i v hv; exact ⟨v', k1, k2.1.2, k2.2.2⟩⟩
end

section
variable [Cfg] {A : Type} [Axis A] {F : FFmt}
/-- **C110 (variances of float weights of any sign).** Leaving out fills never makes a variance larger; only NaN weights are excluded. -/
theorem C110_variance {hist hist' : List (Axis.Coordinate A × Option (Flt F))} (hnan : ∀ cw ∈ hist', cw.2 ≠ some .nan) (hsub : hist.Sublist hist') {h g' : VecHistogram A (WeightedSum (Flt F))}
    (h0 : ∀ i v, h.valueAtIndex i = some v → POrd.ge v.variance (Flt.zero false) = true) (hr : h.callAll (weightedSumCalls hist') = (g', none)) :
    ∃ g, h.callAll (weightedSumCalls hist) = (g, none) ∧ ∀ i v, g.valueAtIndex i = some v → ∃ v', g'.valueAtIndex i = some v' ∧ POrd.ge v'.variance v.variance = true := by
  have hT := C110_float F
  have sq0 : ∀ cw ∈ hist', ∀ q, squareOf cw = .ok q → POrd.ge q (Flt.zero false : Flt F) = true := by
    rintro ⟨c, _ | w⟩ hc q hq
    · cases hq; exact hT.one
    · cases hq; exact Flt.sq_ge (fun e => hnan _ hc (by rw [e]))
  have hsub' : Exceeds (fun a b => a = b ∧ a ∈ hist') hist hist' := by
    have : Exceeds Eq hist hist' := List.sublistForall₂_iff.2 ⟨hist, List.forall₂_refl _, hsub⟩
    exact exceeds_mono this fun a ha b hb e => ⟨e, hsub.subset ha⟩
  have key : ∃ g, h.callAll (weightedSumCalls hist) = (g, none) ∧ ∀ i v, g.valueAtIndex i = some v → ∃ v', g'.valueAtIndex i = some v' ∧ (numLe v.sumw2 v'.sumw2) := by
    refine C110_dense (le := fun v v' : WeightedSum (Flt F) => numLe v.sumw2 v'.sumw2)
      (R := fun c c' => ∃ a ∈ hist, ∃ b ∈ hist', (a = b ∧ a ∈ hist') ∧ c = wsCall a ∧ c' = wsCall b) (calls := weightedSumCalls hist) (calls' := weightedSumCalls hist') ?_ ?_ ?_
      (exceeds_map wsCall wsCall hsub') (h := h) rfl (fun i v hi => ⟨v, hi, h0 i v hi, hT.self _ _ (h0 i v hi)⟩) hr
    · rintro c c' ⟨a, ha, b, hb, ⟨rfl, -⟩, rfl, rfl⟩; rfl
    · rintro c c' v v' w' ⟨a, ha, b, hb, ⟨rfl, hm⟩, rfl, rfl⟩ hv ho
      obtain ⟨e1, q, e2, e3⟩ := (wsCall_adds a v' w').1 ho
      have q0 := sq0 a hm q e2
      obtain ⟨y, y1, y2, y3⟩ := hT.add _ _ _ _ _ hv.1 hv.2 q0 (hT.self _ _ q0) e3
      exact ⟨⟨Flt.add v.sumw (givenWeight a), y⟩, (wsCall_adds a v ⟨_, y⟩).2 ⟨rfl, q, e2, y1⟩, y2, y3⟩
    · intro c' hc' v v' w' hv ho
      rw [weightedSumCalls_eq] at hc'
      obtain ⟨b, hb, rfl⟩ := List.mem_map.1 hc'
      obtain ⟨e1, q, e2, e3⟩ := (wsCall_adds b v' w').1 ho
      exact ⟨hv.1, hT.trans _ _ _ (hT.grow _ _ _ (hT.trans _ _ _ hv.2 hv.1) (sq0 b hb q e2) e3).1 hv.2⟩
  obtain ⟨g, g1, g2⟩ := key
  exact ⟨g, g1, fun i v hv => by obtain ⟨v', k1, k2⟩ := g2 i v hv; exact ⟨v', k1, k2.2⟩⟩
end

section
attribute [local instance] rel64
/-- Without overflow checks integers wrap around, and more data can mean less: one fill of a `u8` leaves 1, 256 fills leave 0. -/
theorem C110_counterexample_wrap : ∃ v v' : MInt .u8, fillSeq [(Call.fill () : Call (MInt .u8) Unit)] RDefault.dflt = (v, none) ∧
    fillSeq (List.replicate 256 (Call.fill () : Call (MInt .u8) Unit)) RDefault.dflt = (v', none) ∧ v'.val < v.val :=
  ⟨.lit 1, .lit 0, by decide +kernel, by decide +kernel, by decide +kernel⟩
end
end NdHist
