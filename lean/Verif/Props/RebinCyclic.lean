import Verif.Props.Interchange
/-!
# C82, C83: cyclic axes with variable-width bins
-/
set_option linter.unusedSectionVars false
namespace NdHist
open Classical

section
variable {T : Type} [cfg : Cfg] [RNum T] [StdLib]

/-- cyclic axes whose coordinates are brought into the range in the same way -/
theorem VariableCyclic.coarser_of {v v' : VariableNoFlow T} {n n' : Nat} {cov cov' covt covt' : BinInterval T → T → Prop} {dom : T → Prop} {m : Nat → Nat}
    (hc : Coarser v n cov v' n' cov' id (fun _ => True) m) (hf : FaithfulAxis (VariableCyclic.mk v) n covt dom) (hf' : FaithfulAxis (VariableCyclic.mk v') n' covt' dom)
    (hw : ∀ c, dom c → ∃ x, VariableCyclic.index ⟨v⟩ c = v.index x ∧ VariableCyclic.index ⟨v'⟩ c = v'.index x) :
    Coarser (VariableCyclic.mk v) n covt (VariableCyclic.mk v') n' covt' id dom m := by
  refine Coarser.of_index hf (hf'.mono (by rintro _ ⟨c, hc, rfl⟩; exact hc)) hc.into ?_ ?_
  · intro (c : T) i hd hi
    obtain ⟨x, h1, h2⟩ := hw c hd
    have hi : VariableCyclic.index ⟨v⟩ c = .ok (some i) := hi
    show VariableCyclic.index ⟨v'⟩ c = .ok (some (m i))
    rw [h1] at hi
    rw [h2]
    exact hc.index_some (c := x) trivial hi
  · intro (c : T) hd hi
    obtain ⟨x, h1, h2⟩ := hw c hd
    have hi : VariableCyclic.index ⟨v⟩ c = .ok none := hi
    show VariableCyclic.index ⟨v'⟩ c = .ok none
    rw [h1] at hi
    rw [h2]
    exact hc.index_none (c := x) trivial hi
end

section
variable {T : Type} [cfg : Cfg] [POrd T] [LawfulPOrd T] [StdLib]

/-- the bounds of a variable-width axis are the least and the greatest edge -/
theorem Variable.bounds {edges : List T} {a : Variable T} (hnew : Variable.new edges = .ok (.ok a)) (hmem : edges.length + 1 < usizeSize) {lo hi : T} (hl : a.low = .ok lo) (hh : a.high = .ok hi) :
    (lo ∈ edges ∧ ∀ e ∈ edges, POrd.le lo e = true) ∧ (hi ∈ edges ∧ ∀ e ∈ edges, POrd.le e hi = true) := by
  obtain ⟨-, ⟨e0, he0, l0, -⟩, ⟨el, hel, ll, -⟩, -, -⟩ := C13_variable_bins hnew hmem
  obtain ⟨hp, hs⟩ := (C10_variable_new_sorts edges).2 a hnew
  obtain ⟨h2, hnn⟩ := ((C10_variable_new_sorts edges).1.1 ⟨a, hnew⟩)
  have hlen := hp.length_eq
  rw [hl] at l0; cases l0
  rw [hh] at ll; cases ll
  have refl : ∀ e ∈ edges, POrd.le e e = true := fun e he => by
    obtain ⟨x, h1, h2⟩ := LawfulPOrd.eq_iff.1 (hnn e he)
    exact LawfulPOrd.le_iff.2 ⟨x, x, h1, h2, le_rfl⟩
  have m0 := hp.mem_iff.1 (List.mem_of_getElem? he0)
  have ml := hp.mem_iff.1 (List.mem_of_getElem? hel)
  refine ⟨⟨m0, fun e he => ?_⟩, ml, fun e he => ?_⟩
  · obtain ⟨k, hk, rfl⟩ := List.getElem_of_mem (hp.mem_iff.2 he)
    obtain ⟨h0, rfl⟩ := List.getElem?_eq_some_iff.1 he0
    rcases Nat.eq_zero_or_pos k with rfl | hpos
    · exact refl _ he
    · exact List.pairwise_iff_getElem.1 hs 0 k h0 hk hpos
  · obtain ⟨k, hk, rfl⟩ := List.getElem_of_mem (hp.mem_iff.2 he)
    obtain ⟨h0, rfl⟩ := List.getElem?_eq_some_iff.1 hel
    rcases Nat.lt_or_ge k (edges.length - 1) with hlt | hge
    · exact List.pairwise_iff_getElem.1 hs k _ hk h0 hlt
    · obtain rfl : k = edges.length - 1 := by omega
      exact refl _ he

theorem le_antisymm_eq {x y : T} (h : POrd.le x y = true) (h' : POrd.le y x = true) : POrd.eq x y = true := by
  obtain ⟨p, q, h1, h2, h3⟩ := LawfulPOrd.le_iff.1 h
  obtain ⟨q', p', h4, h5, h6⟩ := LawfulPOrd.le_iff.1 h'
  rw [h1] at h5; rw [h2] at h4
  cases h5; cases h4
  obtain rfl := le_antisymm h3 h6
  exact LawfulPOrd.eq_iff.2 ⟨p, h1, h2⟩

/-- keeping the outer edges keeps the bounds -/
theorem Variable.same_bounds {edges edges' : List T} {a a' : Variable T} (hnew : Variable.new edges = .ok (.ok a)) (hnew' : Variable.new edges' = .ok (.ok a'))
    (hmem : edges.length + 1 < usizeSize) (hmem' : edges'.length + 1 < usizeSize) (hsub : ∀ e' ∈ edges', ∃ e ∈ edges, POrd.eq e e' = true)
    (hfirst : ∃ e' ∈ edges', ∀ e ∈ edges, POrd.le e' e = true) (hlast : ∃ e' ∈ edges', ∀ e ∈ edges, POrd.le e e' = true) :
    ∃ lo hi lo' hi', a.low = .ok lo ∧ a.high = .ok hi ∧ a'.low = .ok lo' ∧ a'.high = .ok hi' ∧ lo ∈ edges ∧ hi ∈ edges ∧ lo' ∈ edges' ∧ hi' ∈ edges' ∧ POrd.eq lo lo' = true ∧ POrd.eq hi hi' = true := by
  obtain ⟨-, ⟨lo, -, l0, -⟩, ⟨hi, -, ll, -⟩, -, -⟩ := C13_variable_bins hnew hmem
  obtain ⟨-, ⟨lo', -, l0', -⟩, ⟨hi', -, ll', -⟩, -, -⟩ := C13_variable_bins hnew' hmem'
  obtain ⟨⟨a1, a2⟩, a3, a4⟩ := Variable.bounds hnew hmem l0 ll
  obtain ⟨⟨b1, b2⟩, b3, b4⟩ := Variable.bounds hnew' hmem' l0' ll'
  have le_of_eq : ∀ {x y : T}, POrd.eq x y = true → POrd.le x y = true := fun h => by
    obtain ⟨x, h1, h2⟩ := LawfulPOrd.eq_iff.1 h
    exact LawfulPOrd.le_iff.2 ⟨x, x, h1, h2, le_rfl⟩
  obtain ⟨f, f1, f2⟩ := hfirst
  obtain ⟨g, g1, g2⟩ := hlast
  obtain ⟨e, e1, e2⟩ := hsub lo' b1
  obtain ⟨e', e1', e2'⟩ := hsub hi' b3
  refine ⟨lo, hi, lo', hi', l0, ll, l0', ll', a1, a3, b1, b3, le_antisymm_eq ?_ ?_, le_antisymm_eq ?_ ?_⟩
  · exact Variable.le_trans' (a2 e e1) (le_of_eq e2)
  · exact Variable.le_trans' (b2 f f1) (f2 lo a1)
  · exact Variable.le_trans' (g2 hi a3) (b4 g g1)
  · have : POrd.eq hi' e' = true := by
      obtain ⟨x, h1, h2⟩ := LawfulPOrd.eq_iff.1 e2'
      exact LawfulPOrd.eq_iff.2 ⟨x, h2, h1⟩
    exact Variable.le_trans' (le_of_eq this) (a4 e' e1')
end

section
variable [cfg : Cfg] [StdLib] {τ : IntTy}

/-- **C82 (cyclic integer axes with variable-width bins).** Leaving out inner edges merges the bins of a cyclic axis, too; `lo` and `hi` are the outer edges. -/
theorem C82_variable_cyclic_int {edges edges' : List (MInt τ)} {a a' : VariableCyclic (MInt τ)} (hnew : VariableCyclic.new edges = .ok (.ok a)) (hnew' : VariableCyclic.new edges' = .ok (.ok a'))
    (hmem : edges.length + 1 < usizeSize) (hmem' : edges'.length + 1 < usizeSize) (hd : edges.Nodup) (hd' : edges'.Nodup) (hsub : ∀ e ∈ edges', e ∈ edges)
    {lo hi : MInt τ} (hlo : lo ∈ edges' ∧ ∀ e ∈ edges, lo.val ≤ e.val) (hhi : hi ∈ edges' ∧ ∀ e ∈ edges, e.val ≤ hi.val) (hR : hi.val - lo.val ≤ τ.max) :
    Coarser a (edges.length - 1) (BinInterval.CoversTurns (τ := τ) (hi.val - lo.val)) a' (edges'.length - 1) (BinInterval.CoversTurns (τ := τ) (hi.val - lo.val)) id
      (fun c : MInt τ => τ.min ≤ c.val - lo.val ∧ c.val - lo.val ≤ τ.max) (fun i => mergeEdges edges edges' (i + 1) - 1) := by
  have hn := VariableCyclic.new_ok hnew
  have hn' := VariableCyclic.new_ok hnew'
  have hv := VariableNoFlow.new_ok hn
  have hv' := VariableNoFlow.new_ok hn'
  have dist : ∀ {l : List (MInt τ)}, l.Nodup → l.Pairwise (fun x y => POrd.eq x y = false) := fun h => h.imp fun h => by
    rw [MInt.eq_iff]; simpa using fun e => h (MInt.ext e)
  have hsub' : ∀ e' ∈ edges', ∃ e ∈ edges, POrd.eq e e' = true := fun e he => ⟨e, hsub e he, by rw [MInt.eq_iff]; simp⟩
  have hfirst : ∃ e' ∈ edges', ∀ e ∈ edges, POrd.le e' e = true := ⟨lo, hlo.1, fun e he => by rw [MInt.le_iff]; simpa using hlo.2 e he⟩
  have hlast : ∃ e' ∈ edges', ∀ e ∈ edges, POrd.le e e' = true := ⟨hi, hhi.1, fun e he => by rw [MInt.le_iff]; simpa using hhi.2 e he⟩
  have hc := C82_variable_noflow hn hn' hmem hmem' (dist hd) (dist hd') hsub' hfirst hlast
  obtain ⟨l, h, l', h', e1, e2, e3, e4, m1, m2, -, -, q1, q2⟩ := Variable.same_bounds hv hv' hmem hmem' hsub' hfirst hlast
  obtain rfl : l = l' := by rw [MInt.eq_iff] at q1; exact MInt.ext (by simpa using q1)
  obtain rfl : h = h' := by rw [MInt.eq_iff] at q2; exact MInt.ext (by simpa using q2)
  obtain ⟨⟨-, b2⟩, -, b4⟩ := Variable.bounds hv hmem e1 e2
  have k1 : l = lo := by
    have := b2 lo (hsub _ hlo.1)
    rw [MInt.le_iff] at this
    exact MInt.ext (le_antisymm (by simpa using this) (hlo.2 l m1))
  have k2 : h = hi := by
    have := b4 hi (hsub _ hhi.1)
    rw [MInt.le_iff] at this
    exact MInt.ext (le_antisymm (hhi.2 h m2) (by simpa using this))
  subst k1 k2
  obtain ⟨lo₁, hi₁, p1, p2, -, hF⟩ := C51_variable_cyclic_int hnew hmem hd
  obtain ⟨lo₂, hi₂, p3, p4, -, hF'⟩ := C51_variable_cyclic_int hnew' hmem' hd'
  obtain ⟨⟨v⟩⟩ := a
  obtain ⟨⟨v'⟩⟩ := a'
  have p1 : v.low = .ok lo₁ := p1
  have p2 : v.high = .ok hi₁ := p2
  have p3 : v'.low = .ok lo₂ := p3
  have p4 : v'.high = .ok hi₂ := p4
  change v.low = _ at e1
  change v.high = _ at e2
  change v'.low = _ at e3
  change v'.high = _ at e4
  rw [e1] at p1; rw [e2] at p2; rw [e3] at p3; rw [e4] at p4
  cases p1; cases p2; cases p3; cases p4
  have hF := hF hR
  refine VariableCyclic.coarser_of hc hF (hF' hR) ?_
  intro c hd
  have i1 : ∀ c, VariableCyclic.index ⟨⟨v⟩⟩ c = (wrapAround l h c >>= fun x => VariableNoFlow.index ⟨v⟩ x) := fun c => by
    unfold VariableCyclic.index
    simp only [show VariableNoFlow.low ⟨v⟩ = .ok l from e1, show VariableNoFlow.high ⟨v⟩ = .ok h from e2, Res.ok_bind]
  have i2 : ∀ c, VariableCyclic.index ⟨⟨v'⟩⟩ c = (wrapAround l h c >>= fun x => VariableNoFlow.index ⟨v'⟩ x) := fun c => by
    unfold VariableCyclic.index
    simp only [show VariableNoFlow.low ⟨v'⟩ = .ok l from e3, show VariableNoFlow.high ⟨v'⟩ = .ok h from e4, Res.ok_bind]
  rcases hx : wrapAround l h c with p | x
  · obtain ⟨o, ho⟩ := hF.total c hd
    have ho : VariableCyclic.index ⟨⟨v⟩⟩ c = .ok o := ho
    rw [i1, hx] at ho
    cases ho
  · exact ⟨x, by rw [i1, hx]; rfl, by rw [i2, hx]; rfl⟩
end

section
variable [cfg : Cfg] [StdLib] {F : FFmt} {e z : ℤ}

theorem GridTurns.congr {l l' c : Flt F} (h : l.val = l'.val) (hc : GridTurns e l c) : GridTurns e l' c := by
  unfold GridTurns at hc ⊢
  rwa [← h]

/-- **C82 (cyclic float axes with variable-width bins).** For coordinates on a grid on which the outer edges lie (as for C76). -/
theorem C82_variable_cyclic_float {edges edges' : List (Flt F)} {a a' : VariableCyclic (Flt F)} (hnew : VariableCyclic.new edges = .ok (.ok a)) (hnew' : VariableCyclic.new edges' = .ok (.ok a'))
    (hmem : edges.length + 1 < usizeSize) (hmem' : edges'.length + 1 < usizeSize) (hfin : ∀ x ∈ edges, x.isFin) (hfin' : ∀ x ∈ edges', x.isFin)
    (hd : edges.Pairwise (fun x y => x.val ≠ y.val)) (hd' : edges'.Pairwise (fun x y => x.val ≠ y.val)) (hsub : ∀ x ∈ edges', ∃ y ∈ edges, y.val = x.val)
    {lo hi : Flt F} (hlo : lo ∈ edges' ∧ ∀ x ∈ edges, lo.val ≤ x.val) (hhi : hi ∈ edges' ∧ ∀ x ∈ edges, x.val ≤ hi.val)
    (he1 : F.qmin ≤ e) (he2 : e + F.p ≤ F.emax) {N : ℕ}
    (hlo0 : lo.val = z * pow2 e) (hhi0 : hi.val = (z + N) * pow2 e) (hNp : N ≤ 2 ^ F.p) (hz : |z| ≤ 2 ^ F.p) (hzN : |z + N| ≤ 2 ^ F.p) :
    Coarser a (edges.length - 1) (BinInterval.CoversTurnsF (N * pow2 e)) a' (edges'.length - 1) (BinInterval.CoversTurnsF (N * pow2 e)) id (GridTurns e lo)
      (fun i => mergeEdges edges edges' (i + 1) - 1) := by
  have hn := VariableCyclic.new_ok hnew
  have hn' := VariableCyclic.new_ok hnew'
  have hv := VariableNoFlow.new_ok hn
  have hv' := VariableNoFlow.new_ok hn'
  have dist : ∀ {l : List (Flt F)}, (∀ x ∈ l, x.isFin) → l.Pairwise (fun x y => x.val ≠ y.val) → l.Pairwise (fun x y => POrd.eq x y = false) := by
    intro l hfin hd
    have h1 : l.Pairwise (fun x y => x ∈ l ∧ y ∈ l) := List.pairwise_of_forall_mem_list fun x hx y hy => ⟨hx, hy⟩
    refine (hd.and h1).imp ?_
    rintro x y ⟨hxy, hx, hy⟩
    rw [Flt.eq_fin (hfin x hx) (hfin y hy)]
    exact decide_eq_false hxy
  have hsub' : ∀ e' ∈ edges', ∃ e ∈ edges, POrd.eq e e' = true := fun x hx => by
    obtain ⟨y, hy, hyx⟩ := hsub x hx
    exact ⟨y, hy, by rw [Flt.eq_fin (hfin y hy) (hfin' x hx)]; exact decide_eq_true hyx⟩
  have hfirst : ∃ e' ∈ edges', ∀ e ∈ edges, POrd.le e' e = true :=
    ⟨lo, hlo.1, fun x hx => by rw [Flt.le_fin (hfin' _ hlo.1) (hfin x hx)]; exact decide_eq_true (hlo.2 x hx)⟩
  have hlast : ∃ e' ∈ edges', ∀ e ∈ edges, POrd.le e e' = true :=
    ⟨hi, hhi.1, fun x hx => by rw [Flt.le_fin (hfin x hx) (hfin' _ hhi.1)]; exact decide_eq_true (hhi.2 x hx)⟩
  have hc := C82_variable_noflow hn hn' hmem hmem' (dist hfin hd) (dist hfin' hd') hsub' hfirst hlast
  obtain ⟨l, h, l', h', e1, e2, e3, e4, m1, m2, m3, m4, q1, q2⟩ := Variable.same_bounds hv hv' hmem hmem' hsub' hfirst hlast
  rw [Flt.eq_fin (hfin _ m1) (hfin' _ m3)] at q1
  rw [Flt.eq_fin (hfin _ m2) (hfin' _ m4)] at q2
  have q1 : l.val = l'.val := of_decide_eq_true q1
  have q2 : h.val = h'.val := of_decide_eq_true q2
  obtain ⟨⟨-, b2⟩, -, b4⟩ := Variable.bounds hv hmem e1 e2
  have k1 : l.val = lo.val := by
    obtain ⟨y, hy, hyx⟩ := hsub _ hlo.1
    have := b2 y hy
    rw [Flt.le_fin (hfin _ m1) (hfin _ hy)] at this
    have := of_decide_eq_true this
    exact le_antisymm (by rwa [hyx] at this) (hlo.2 l m1)
  have k2 : h.val = hi.val := by
    obtain ⟨y, hy, hyx⟩ := hsub _ hhi.1
    have := b4 y hy
    rw [Flt.le_fin (hfin _ hy) (hfin _ m2)] at this
    have := of_decide_eq_true this
    exact le_antisymm (hhi.2 h m2) (by rwa [hyx] at this)
  have v1 : l.val = z * pow2 e := k1.trans hlo0
  have v2 : h.val = (z + N) * pow2 e := k2.trans hhi0
  have v3 : l'.val = z * pow2 e := q1.symm.trans v1
  have v4 : h'.val = (z + N) * pow2 e := q2.symm.trans v2
  have hF := (C76_variable_cyclic hnew hmem hfin hd he1 he2 l h e1 e2 v1 v2 hNp hz hzN).1.mono fun c hc => GridTurns.congr k1.symm hc
  have hF' := (C76_variable_cyclic hnew' hmem' hfin' hd' he1 he2 l' h' e3 e4 v3 v4 hNp hz hzN).1.mono fun c hc => GridTurns.congr (k1.symm.trans q1) hc
  have hlt : l.val < h.val := by
    refine lt_of_le_of_ne ?_ ?_
    · have := b2 h m2
      rw [Flt.le_fin (hfin _ m1) (hfin _ m2)] at this
      exact of_decide_eq_true this
    · intro he
      obtain ⟨h2, -⟩ := ((C10_variable_new_sorts edges).1.1 ⟨_, hv⟩)
      have hall : ∀ x ∈ edges, x.val = l.val := fun x hx => by
        have t1 := b2 x hx
        have t2 := b4 x hx
        rw [Flt.le_fin (hfin _ m1) (hfin _ hx)] at t1
        rw [Flt.le_fin (hfin _ hx) (hfin _ m2)] at t2
        exact le_antisymm (by rw [he]; exact of_decide_eq_true t2) (of_decide_eq_true t1)
      rcases edges with _ | ⟨x, _ | ⟨y, t⟩⟩
      · simp at h2
      · simp at h2
      · exact (List.pairwise_cons.1 hd).1 y (by simp) ((hall x (by simp)).trans (hall y (by simp)).symm)
  have hN : 0 < N := by
    rcases Nat.eq_zero_or_pos N with rfl | hp
    · rw [v1, v2] at hlt; simp at hlt
    · exact hp
  obtain ⟨⟨v⟩⟩ := a
  obtain ⟨⟨v'⟩⟩ := a'
  refine VariableCyclic.coarser_of hc hF hF' ?_
  intro c hcd
  obtain ⟨y, hy, hyp⟩ := hcd.int hlo0
  obtain ⟨x, w1, x1, x2⟩ := wrapAround_grid he1 he2 (hfin _ m1) v1 (hfin _ m2) v2 hN hNp hz hzN hcd.1 hy hyp
  obtain ⟨x', w1', x1', x2'⟩ := wrapAround_grid he1 he2 (hfin' _ m3) v3 (hfin' _ m4) v4 hN hNp hz hzN hcd.1 hy hyp
  refine ⟨x, ?_, ?_⟩
  · unfold VariableCyclic.index
    simp only [show VariableNoFlow.low ⟨v⟩ = .ok l from e1, show VariableNoFlow.high ⟨v⟩ = .ok h from e2, Res.ok_bind, w1]
  · unfold VariableCyclic.index
    simp only [show VariableNoFlow.low ⟨v'⟩ = .ok l' from e3, show VariableNoFlow.high ⟨v'⟩ = .ok h' from e4, Res.ok_bind, w1']
    have hk : x'.key = x.key := by rw [Flt.key_fin x1', Flt.key_fin x1, x2, x2']
    have hk' : ∀ d : Flt F, POrd.le d x' = POrd.le d x := fun d => by
      rw [Bool.eq_iff_iff, LawfulPOrd.le_iff, LawfulPOrd.le_iff]
      show (∃ p q, d.key = some p ∧ x'.key = some q ∧ p ≤ q) ↔ (∃ p q, d.key = some p ∧ x.key = some q ∧ p ≤ q)
      rw [hk]
    rw [VariableNoFlow.index_count hn' hmem' (dist hfin' hd') x', VariableNoFlow.index_count hn' hmem' (dist hfin' hd') x, Flt.eq_self (by rintro rfl; exact x1'), Flt.eq_self (by rintro rfl; exact x1)]
    simp only [hk']
end

/-! ## Uniform and variable-width axes with the same edges -/
section
variable [cfg : Cfg] [StdLib] {F : FFmt} {e z : ℤ} {w : ℕ}

/-- the edges of a variable-width axis whose edges lie at even distances -/
theorem Variable.even_edges {num : ℕ} {edges : List (Flt F)} {a : Variable (Flt F)} (hw : 0 < w) (hnew : Variable.new edges = .ok (.ok a))
    (hfin : ∀ x ∈ edges, x.isFin) (hedges : (edges.map Flt.val).Perm ((List.range (num + 1)).map fun k : Nat => ((z : ℚ) + k * w) * pow2 e)) :
    edges.length = num + 1 ∧ (∀ (k : ℕ) (x : Flt F), a.binEdges[k]? = some x → x.isFin ∧ x.val = ((z : ℚ) + k * w) * pow2 e) ∧ edges.Pairwise (fun x y => x.val ≠ y.val) ∧
    edges.Pairwise (fun x y => POrd.eq x y = false) := by
  have hpe := pow2_pos e
  have hwQ : (0 : ℚ) < w := by exact_mod_cast hw
  have hf : ∀ k : Nat, ((z : ℚ) + k * w) * pow2 e < ((z : ℚ) + (k + 1 : Nat) * w) * pow2 e := fun k => by
    refine mul_lt_mul_of_pos_right ?_ hpe
    push_cast; linarith
  obtain ⟨hp, hsort⟩ := (C10_variable_new_sorts edges).2 a hnew
  have hfin' : ∀ x ∈ a.binEdges, x.isFin := fun x hx => hfin x (hp.mem_iff.1 hx)
  have hsort' : a.binEdges.Pairwise (fun x y => x.val ≤ y.val) := by
    have h1 : a.binEdges.Pairwise (fun x y => x ∈ a.binEdges ∧ y ∈ a.binEdges) := List.pairwise_of_forall_mem_list fun x hx y hy => ⟨hx, hy⟩
    refine (hsort.and h1).imp ?_
    rintro x y ⟨hxy, hx, hy⟩
    rw [Flt.le_fin (hfin' x hx) (hfin' y hy)] at hxy
    exact of_decide_eq_true hxy
  obtain ⟨-, hval⟩ := sorted_edges (val := Flt.val) hp hsort' hf hedges
  have hd := distinct_edges hf hedges
  refine ⟨by simpa using hedges.length_eq, fun k x hx => ⟨hfin' x (List.mem_of_getElem? hx), hval k x hx⟩, hd, ?_⟩
  have h1 : edges.Pairwise (fun x y => x ∈ edges ∧ y ∈ edges) := List.pairwise_of_forall_mem_list fun x hx y hy => ⟨hx, hy⟩
  refine (hd.and h1).imp ?_
  rintro x y ⟨hxy, hx, hy⟩
  rw [Flt.eq_fin (hfin x hx) (hfin y hy)]
  exact decide_eq_false hxy

/-- the bins of the two axes have the same bounds -/
theorem noflow_bins_float {num : ℕ} {low high : Flt F} {a : UniformNoFlow (Flt F)} {edges : List (Flt F)} {a' : VariableNoFlow (Flt F)} (hg : GridFits F e z w num) (hl : low.isFin) (hl0 : low.val = z * pow2 e)
    (hh : high.isFin) (hh0 : high.val = (z + num * w) * pow2 e) (hn : num + 2 < usizeSize) (hnew : UniformNoFlow.new num low high = .ok (.ok a)) (hnew' : VariableNoFlow.new edges = .ok (.ok a'))
    (hfin : ∀ x ∈ edges, x.isFin) (hedges : (edges.map Flt.val).Perm ((List.range (num + 1)).map fun k : Nat => ((z : ℚ) + k * w) * pow2 e)) {i : ℕ} (hi : i < num) :
    ∃ s t s' t' : Flt F, a.bin i = .ok (some (.Bin s t)) ∧ a'.bin i = .ok (some (.Bin s' t')) ∧ s.isFin ∧ t.isFin ∧ s'.isFin ∧ t'.isFin ∧ s'.val = s.val ∧ t'.val = t.val := by
  have hu := UniformNoFlow.new_inv hnew
  obtain ⟨-, hnum, -⟩ := Uniform.grid_new hg hl hl0 hh hh0 hu
  obtain ⟨s, t, hb, fs, ft, vs, vt⟩ := (C76_uniform_new hg hl hl0 hh hh0 hn hu).2 i hi
  obtain ⟨hlen, hE, -, -⟩ := Variable.even_edges hg.w_pos (VariableNoFlow.new_ok hnew') hfin hedges
  obtain ⟨s', t', h1, h2, h3⟩ := (C14_variable_noflow_bins hnew' (by omega)).2.1 i (by omega)
  obtain ⟨f1, v1⟩ := hE _ _ h1
  obtain ⟨f2, v2⟩ := hE _ _ h2
  obtain ⟨u⟩ := a
  change u.num = num at hnum
  refine ⟨s, t, s', t', ?_, h3, fs, ft, f1, f2, by rw [v1, vs], by rw [v2, vt]; push_cast; rfl⟩
  rw [(C07_noflow_bin u i (by omega) (by omega)).1 (by omega)]
  exact hb

/-- **C83 (`UniformNoFlow` and `VariableNoFlow`, floats).** -/
theorem C83_uniform_variable_noflow_float {num : ℕ} {low high : Flt F} {a : UniformNoFlow (Flt F)} {edges : List (Flt F)} {a' : VariableNoFlow (Flt F)} (hg : GridFits F e z w num) (hl : low.isFin)
    (hl0 : low.val = z * pow2 e) (hh : high.isFin) (hh0 : high.val = (z + num * w) * pow2 e) (hn : num + 2 < usizeSize) (hnew : UniformNoFlow.new num low high = .ok (.ok a))
    (hnew' : VariableNoFlow.new edges = .ok (.ok a')) (hfin : ∀ x ∈ edges, x.isFin) (hedges : (edges.map Flt.val).Perm ((List.range (num + 1)).map fun k : Nat => ((z : ℚ) + k * w) * pow2 e)) :
    Coarser a num BinInterval.Covers a' num BinInterval.Covers id (GridCoord e low high) id := by
  obtain ⟨hlen, -, -, hd⟩ := Variable.even_edges hg.w_pos (VariableNoFlow.new_ok hnew') hfin hedges
  have hF := (C76_uniform_noflow hg hl hl0 hn (Or.inl ⟨high, hh, hh0, hnew⟩)).2.2
  have ehigh : a.high = high := (Uniform.grid_new hg hl hl0 hh hh0 (UniformNoFlow.new_inv hnew)).2.2.2
  rw [ehigh] at hF
  have hF' := C51_variable_noflow hnew' (by omega) hd
  rw [hlen, Nat.add_sub_cancel] at hF'
  refine Coarser.of_bins hF (hF'.mono fun _ _ => trivial) ?_
  intro i b b' hi hb hb' (c : Flt F) _
  obtain ⟨s, t, s', t', h1, h2, f1, f2, f3, f4, v1, v2⟩ := noflow_bins_float hg hl hl0 hh hh0 hn hnew hnew' hfin hedges hi
  have hb : a.bin i = .ok (some b) := hb
  have hb' : a'.bin i = .ok (some b') := hb'
  rw [h1] at hb; rw [h2] at hb'
  cases hb; cases hb'
  show POrd.le s' c = true ∧ POrd.lt c t' = true ↔ POrd.le s c = true ∧ POrd.lt c t = true
  rw [(Flt.edge_congr (c := c) f3 f1 v1).2, (Flt.edge_congr (c := c) f4 f2 v2).1]

/-- **C83 (`UniformCyclic` and `VariableCyclic`, floats).** -/
theorem C83_uniform_variable_cyclic_float {num : ℕ} {low high : Flt F} {a : UniformCyclic (Flt F)} {edges : List (Flt F)} {a' : VariableCyclic (Flt F)} (hg : GridFits F e z w num) (hl : low.isFin)
    (hl0 : low.val = z * pow2 e) (hh : high.isFin) (hh0 : high.val = (z + num * w) * pow2 e) (hn : num + 2 < usizeSize) (hnew : UniformCyclic.new num low high = .ok (.ok a))
    (hnew' : VariableCyclic.new edges = .ok (.ok a')) (hfin : ∀ x ∈ edges, x.isFin) (hedges : (edges.map Flt.val).Perm ((List.range (num + 1)).map fun k : Nat => ((z : ℚ) + k * w) * pow2 e)) :
    Coarser a num (BinInterval.CoversTurnsF (num * (w * pow2 e))) a' num (BinInterval.CoversTurnsF (num * (w * pow2 e))) id (GridTurns e low) id := by
  have hn' := VariableCyclic.new_ok hnew'
  have hv := VariableNoFlow.new_ok hn'
  obtain ⟨hlen, hE, hdv, hd⟩ := Variable.even_edges hg.w_pos hv hfin hedges
  have hF := (C76_uniform_cyclic hg hl hl0 hn (Or.inl ⟨high, hh, hh0, hnew⟩)).1
  obtain ⟨-, ⟨lo, he0, l0, -⟩, ⟨hi, hel, ll, -⟩, -, -⟩ := C13_variable_bins hv (by omega)
  obtain ⟨f0, v0⟩ := hE _ _ he0
  obtain ⟨f1, v1⟩ := hE _ _ hel
  rw [hlen, Nat.add_sub_cancel] at v1
  have v0 : lo.val = z * pow2 e := by rw [v0]; simp
  have hF' := (C76_variable_cyclic (N := num * w) hnew' (by omega) hfin hdv hg.e_ge hg.e_le lo hi l0 ll v0 (by rw [v1]; push_cast; rfl) hg.range_le hg.low_le (by exact_mod_cast hg.high_le)).1
  rw [hlen, Nat.add_sub_cancel, show ((num * w : ℕ) : ℚ) * pow2 e = num * (w * pow2 e) by push_cast; ring] at hF'
  have hF' := hF'.mono (dom' := GridTurns e low) fun c hc => GridTurns.congr (by rw [hl0, v0]) hc
  obtain ⟨⟨u⟩⟩ := a
  obtain ⟨v⟩ := a'
  have hu := UniformCyclic.new_inv hnew
  refine Coarser.of_bins hF (hF'.mono (by rintro _ ⟨c, hc, rfl⟩; exact hc)) ?_
  intro i b b' hi hb hb' (c : Flt F) _
  obtain ⟨s, t, s', t', h1, h2, f1, f2, f3, f4, v1, v2⟩ := noflow_bins_float (a := ⟨u⟩) hg hl hl0 hh hh0 hn (by unfold UniformNoFlow.new; rw [hu]; rfl) hn' hfin hedges hi
  have hb : UniformNoFlow.bin ⟨u⟩ i = .ok (some b) := hb
  have hb' : v.bin i = .ok (some b') := hb'
  rw [h1] at hb; rw [h2] at hb'
  cases hb; cases hb'
  show BinInterval.CoversTurnsF _ (.Bin s' t') c ↔ BinInterval.CoversTurnsF _ (.Bin s t) c
  unfold BinInterval.CoversTurnsF
  simp only [v1, v2]
end
end NdHist
