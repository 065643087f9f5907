import Verif.Props.Rebin
import Verif.Props.FloatGrid
/-!
# C82: the library's axes with coarser bins
-/
set_option linter.unusedSectionVars false
namespace NdHist
open Classical

section
variable {T : Type} [cfg : Cfg] [POrd T] [LawfulPOrd T] [StdLib]

/-- on distinct edges the bin number is the number of edges not above the coordinate -/
theorem Variable.index_count {edges : List T} {a : Variable T} (hnew : Variable.new edges = .ok (.ok a)) (hmem : edges.length + 1 < usizeSize)
    (hd : edges.Pairwise (fun x y => POrd.eq x y = false)) (c : T) (hc : POrd.eq c c = true) : a.index c = .ok (some (edges.countP fun e => POrd.le e c)) := by
  obtain ⟨hp, hs⟩ := (C10_variable_new_sorts edges).2 a hnew
  obtain ⟨i, hi, hile, h1, h2⟩ := C12_repeated_edges_partial hnew hmem c hc
  rw [hi]
  congr 2
  rw [← hp.countP_eq, ← List.take_append_drop i a.binEdges, List.countP_append]
  have e1 : (a.binEdges.take i).countP (fun e => POrd.le e c) = i := by
    rw [List.countP_eq_length.2]
    · rw [List.length_take, hp.length_eq]; omega
    · intro e he
      obtain ⟨k, hk, rfl⟩ := List.getElem_of_mem he
      have hk' : k < i := by rw [List.length_take] at hk; omega
      refine h1 k _ ?_ hk'
      rw [List.getElem_take]
      exact List.getElem?_eq_getElem _
  have e2 : (a.binEdges.drop i).countP (fun e => POrd.le e c) = 0 := by
    rw [List.countP_eq_zero]
    intro e he hle
    obtain ⟨k, hk, rfl⟩ := List.getElem_of_mem he
    rw [List.length_drop] at hk
    rw [List.getElem_drop] at hle
    have hik : i + k < a.binEdges.length := by omega
    obtain ⟨hce, h | ⟨s, hi0, hsi, hsc, hec⟩⟩ := h2 (i + k) _ (List.getElem?_eq_getElem hik) (by omega)
    · obtain ⟨x, y, hx, hy, hxy⟩ := LawfulPOrd.lt_iff.1 h
      obtain ⟨y', x', hy', hx', hxy'⟩ := LawfulPOrd.le_iff.1 hle
      rw [hx] at hx'; rw [hy] at hy'
      cases hx'; cases hy'
      exact absurd hxy (not_lt.2 hxy')
    · have := strict_of_distinct hnew hd (i := i - 1) (j := i + k) (by omega) hik
      obtain ⟨x, y, hx, hy, hxy⟩ := LawfulPOrd.lt_iff.1 this
      rw [List.getElem?_eq_some_iff] at hsi
      obtain ⟨_, rfl⟩ := hsi
      obtain ⟨z, hz1, hz2⟩ := LawfulPOrd.eq_iff.1 hsc
      obtain ⟨z', hz1', hz2'⟩ := LawfulPOrd.eq_iff.1 hec
      rw [hx] at hz1; cases hz1
      rw [hy] at hz1'; cases hz1'
      rw [hz2] at hz2'; cases hz2'
      exact lt_irrefl _ hxy
  omega

theorem countP_mono_le {edges : List T} {x y : T} (h : POrd.le x y = true) : edges.countP (fun e => POrd.le e x) ≤ edges.countP (fun e => POrd.le e y) :=
  List.countP_mono_left fun _ _ he => Variable.le_trans' he h

/-- a coarse edge, which is also a fine edge, is below the coordinate exactly if it has at most as many fine edges below it -/
theorem rank_le_iff {edges : List T} {e e' c : T} (he : e ∈ edges) (hee : POrd.eq e e' = true) (hc : POrd.eq c c = true) :
    edges.countP (fun x => POrd.le x e') ≤ edges.countP (fun x => POrd.le x c) ↔ POrd.le e' c = true := by
  obtain ⟨x, hx, hx'⟩ := LawfulPOrd.eq_iff.1 hee
  obtain ⟨z, hz, -⟩ := LawfulPOrd.eq_iff.1 hc
  constructor
  · intro h
    by_contra hn
    have hlt : z < x := by
      rw [LawfulPOrd.le_iff] at hn
      by_contra hnl
      exact hn ⟨x, z, hx', hz, not_lt.1 hnl⟩
    have hle : POrd.le c e' = true := LawfulPOrd.le_iff.2 ⟨z, x, hz, hx', hlt.le⟩
    have : edges.countP (fun x => POrd.le x c) < edges.countP (fun x => POrd.le x e') := by
      obtain ⟨l₁, l₂, rfl⟩ := List.append_of_mem he
      have h1 := countP_mono_le (edges := l₁) hle
      have h2 := countP_mono_le (edges := l₂) hle
      have k1 : POrd.le e e' = true := LawfulPOrd.le_iff.2 ⟨x, x, hx, hx', le_rfl⟩
      have k2 : ¬ POrd.le e c = true := by
        rw [LawfulPOrd.le_iff]
        rintro ⟨x₁, z₁, q1, q2, q3⟩
        rw [hx] at q1; rw [hz] at q2; cases q1; cases q2
        exact absurd hlt (not_lt.2 q3)
      simp only [List.countP_append, List.countP_cons, k1, k2, if_true, Bool.false_eq_true, if_false]
      omega
    omega
  · exact countP_mono_le

/-- **C82 (variable-width bins).** Leaving out edges gives a coarser axis. -/
theorem C82_variable {edges edges' : List T} {a a' : Variable T} (hnew : Variable.new edges = .ok (.ok a)) (hnew' : Variable.new edges' = .ok (.ok a'))
    (hmem : edges.length + 1 < usizeSize) (hmem' : edges'.length + 1 < usizeSize) (hd : edges.Pairwise (fun x y => POrd.eq x y = false))
    (hd' : edges'.Pairwise (fun x y => POrd.eq x y = false)) (hsub : ∀ e' ∈ edges', ∃ e ∈ edges, POrd.eq e e' = true) :
    Coarser a (edges.length + 1) BinInterval.Covers a' (edges'.length + 1) BinInterval.Covers id (fun c => POrd.eq c c = true) (mergeEdges edges edges') := by
  refine Coarser.of_index (C51_variable hnew hmem hd) ((C51_variable hnew' hmem' hd').mono (by rintro _ ⟨c, hc, rfl⟩; exact hc)) ?_ ?_ ?_
  · intro i _
    have := List.countP_le_length (p := fun e' => decide (edges.countP (fun e => POrd.le e e') ≤ i)) (l := edges')
    unfold mergeEdges; omega
  · intro c i hc hi
    rw [show Axis.index a c = a.index c from rfl, Variable.index_count hnew hmem hd c hc] at hi
    simp only [Except.ok.injEq, Option.some.injEq] at hi
    subst hi
    rw [show Axis.index a' (id c) = a'.index c from rfl, Variable.index_count hnew' hmem' hd' c hc]
    congr 2
    unfold mergeEdges
    apply List.countP_congr
    intro e' he'
    obtain ⟨e, he, hee⟩ := hsub e' he'
    rw [decide_eq_true_iff, rank_le_iff he hee hc]
  · intro c hc hi
    rw [show Axis.index a c = a.index c from rfl, Variable.index_count hnew hmem hd c hc] at hi
    cases hi

theorem VariableNoFlow.index_count {edges : List T} {a : VariableNoFlow T} (hnew : VariableNoFlow.new edges = .ok (.ok a)) (hmem : edges.length + 1 < usizeSize)
    (hd : edges.Pairwise (fun x y => POrd.eq x y = false)) (c : T) :
    a.index c = .ok (if POrd.eq c c = false ∨ edges.countP (fun e => POrd.le e c) = 0 ∨ edges.countP (fun e => POrd.le e c) = edges.length then none
      else some (edges.countP (fun e => POrd.le e c) - 1)) := by
  have hv := VariableNoFlow.new_ok hnew
  obtain ⟨h2, -, p1, -⟩ := Variable.new_ok hv
  have hlen := p1.length_eq
  by_cases hc : POrd.eq c c = true
  · have hj := Variable.index_count hv hmem hd c hc
    have hle := List.countP_le_length (p := fun e => POrd.le e c) (l := edges)
    rw [VariableNoFlow.index_of (by omega) hj (by omega), hlen]
    simp [hc]
  · have hc : POrd.eq c c = false := by simpa using hc
    obtain ⟨i, hi, -, -, h3, -⟩ := C11_variable_index hv hd hmem c
    have := h3.2 (Or.inl hc)
    rw [VariableNoFlow.index_of (by omega) hi (by omega)]
    simp [hc, this, hlen]

/-- **C82 (variable-width bins without flow bins).** The same, if the first and the last edge are kept. -/
theorem C82_variable_noflow {edges edges' : List T} {a a' : VariableNoFlow T} (hnew : VariableNoFlow.new edges = .ok (.ok a)) (hnew' : VariableNoFlow.new edges' = .ok (.ok a'))
    (hmem : edges.length + 1 < usizeSize) (hmem' : edges'.length + 1 < usizeSize) (hd : edges.Pairwise (fun x y => POrd.eq x y = false))
    (hd' : edges'.Pairwise (fun x y => POrd.eq x y = false)) (hsub : ∀ e' ∈ edges', ∃ e ∈ edges, POrd.eq e e' = true)
    (hfirst : ∃ e' ∈ edges', ∀ e ∈ edges, POrd.le e' e = true) (hlast : ∃ e' ∈ edges', ∀ e ∈ edges, POrd.le e e' = true) :
    Coarser a (edges.length - 1) BinInterval.Covers a' (edges'.length - 1) BinInterval.Covers id (fun _ => True) (fun i => mergeEdges edges edges' (i + 1) - 1) := by
  have hv := VariableNoFlow.new_ok hnew
  have hv' := VariableNoFlow.new_ok hnew'
  obtain ⟨l2, hnn, -, -⟩ := Variable.new_ok hv
  obtain ⟨l2', hnn', -, -⟩ := Variable.new_ok hv'
  -- inner ranks go to inner ranks
  have hinner : ∀ i, i + 1 < edges.length → mergeEdges edges edges' (i + 1) ≠ 0 ∧ mergeEdges edges edges' (i + 1) < edges'.length := by
    intro i hi
    obtain ⟨ef, hef, hf⟩ := hfirst
    obtain ⟨el, hel, hl⟩ := hlast
    constructor
    · unfold mergeEdges
      intro h0
      rw [List.countP_eq_zero] at h0
      refine h0 ef hef ?_
      rw [decide_eq_true_iff]
      -- only the first edge itself is not above the first edge
      refine le_trans ?_ (Nat.succ_le_succ (Nat.zero_le i))
      by_contra h1
      have h1 : 2 ≤ edges.countP (fun e => POrd.le e ef) := by omega
      have hall := List.Pairwise.sublist (List.filter_sublist (p := fun e => POrd.le e ef)) hd
      rw [List.countP_eq_length_filter] at h1
      rcases hfl : edges.filter (fun e => POrd.le e ef) with _ | ⟨x, _ | ⟨y, l⟩⟩
      · rw [hfl] at h1; simp at h1
      · rw [hfl] at h1; simp at h1
      · rw [hfl] at hall
        have hxy := (List.pairwise_cons.1 hall).1 y (by simp)
        have hx : x ∈ edges.filter (fun e => POrd.le e ef) := by rw [hfl]; simp
        have hy : y ∈ edges.filter (fun e => POrd.le e ef) := by rw [hfl]; simp
        rw [List.mem_filter] at hx hy
        obtain ⟨x₁, f₁, q1, q2, q3⟩ := LawfulPOrd.le_iff.1 hx.2
        obtain ⟨y₁, f₂, r1, r2, r3⟩ := LawfulPOrd.le_iff.1 hy.2
        obtain ⟨f₃, x₂, s1, s2, s3⟩ := LawfulPOrd.le_iff.1 (hf x hx.1)
        obtain ⟨f₄, y₂, t1, t2, t3⟩ := LawfulPOrd.le_iff.1 (hf y hy.1)
        rw [q2] at r2 s1 t1
        rw [q1] at s2
        rw [r1] at t2
        cases r2; cases s1; cases t1; cases s2; cases t2
        have e1 := le_antisymm q3 s3
        have e2 := le_antisymm r3 t3
        rw [LawfulPOrd.eq_iff.2 ⟨f₁, by rw [q1, e1], by rw [r1, e2]⟩] at hxy
        cases hxy
    · unfold mergeEdges
      refine lt_of_le_of_ne List.countP_le_length fun h => ?_
      rw [List.countP_eq_length] at h
      have := h el hel
      rw [decide_eq_true_iff, List.countP_eq_length.2 (fun e he => hl e he)] at this
      omega
  refine Coarser.of_index (C51_variable_noflow hnew hmem hd) ((C51_variable_noflow hnew' hmem' hd').mono (fun _ _ => trivial)) ?_ ?_ ?_
  · intro i hi
    have := hinner i (by omega)
    show mergeEdges edges edges' (i + 1) - 1 < _
    omega
  · intro (c : T) i _ hi
    rw [show Axis.index a c = a.index c from rfl, VariableNoFlow.index_count hnew hmem hd c] at hi
    simp only [Except.ok.injEq] at hi
    split at hi
    · cases hi
    · rename_i hn
      push Not at hn
      obtain ⟨hc, n0, nl⟩ := hn
      have hc : POrd.eq c c = true := by simpa using hc
      simp only [Option.some.injEq] at hi
      have hi1 : edges.countP (fun e => POrd.le e c) = i + 1 := by omega
      have hle := List.countP_le_length (p := fun e => POrd.le e c) (l := edges)
      have key : edges'.countP (fun e => POrd.le e c) = mergeEdges edges edges' (i + 1) := by
        rw [← hi1]
        unfold mergeEdges
        apply List.countP_congr
        intro e' he'
        obtain ⟨e, he, hee⟩ := hsub e' he'
        rw [decide_eq_true_iff, rank_le_iff he hee hc]
      have := hinner i (by omega)
      rw [show Axis.index a' (id c) = a'.index c from rfl, VariableNoFlow.index_count hnew' hmem' hd' c, key, if_neg]
      push Not
      exact ⟨by simp [hc], this.1, by omega⟩
  · intro c _ hi
    rw [show Axis.index a c = a.index c from rfl, VariableNoFlow.index_count hnew hmem hd c] at hi
    rw [show Axis.index a' (id c) = a'.index c from rfl, VariableNoFlow.index_count hnew' hmem' hd' c]
    simp only [Except.ok.injEq] at hi ⊢
    split at hi
    · rename_i h
      rw [if_pos]
      rcases h with h | h | h
      · exact Or.inl h
      · right; left
        rw [List.countP_eq_zero] at h ⊢
        intro e' he' hle
        obtain ⟨e, he, hee⟩ := hsub e' he'
        refine h e he (Variable.le_trans' ?_ hle)
        obtain ⟨x, h1, h2⟩ := LawfulPOrd.eq_iff.1 hee
        exact LawfulPOrd.le_iff.2 ⟨x, x, h1, h2, le_rfl⟩
      · right; right
        rw [List.countP_eq_length] at h ⊢
        intro e' he'
        obtain ⟨e, he, hee⟩ := hsub e' he'
        refine Variable.le_trans' ?_ (h e he)
        obtain ⟨x, h1, h2⟩ := LawfulPOrd.eq_iff.1 hee
        exact LawfulPOrd.le_iff.2 ⟨x, x, h2, h1, le_rfl⟩
    · cases hi
end

/-! ## Uniform axes -/
section
variable [cfg : Cfg]

/-- **C82 (no flow bins).** If a uniform axis is coarser than another with the same range, so it is without the flow bins. -/
theorem C82_uniform_noflow {T : Type} [RNum T] {u u' : Uniform T} {cov cov' : BinInterval T → T → Prop} {same : T → T} {dom : T → Prop} {m : Nat → Nat}
    (hc : Coarser u (u.num + 2) cov u' (u'.num + 2) cov' same dom m) (h0 : ∀ i, i < u.num + 2 → (m i = 0 ↔ i = 0)) (hlast : ∀ i, i < u.num + 2 → (m i = u'.num + 1 ↔ i = u.num + 1)) :
    Coarser (UniformNoFlow.mk u) u.num cov (UniformNoFlow.mk u') u'.num cov' same dom (fun i => m (i + 1) - 1) := by
  have hn : u.num + 2 < usizeSize := hc.fine.lawful.fits
  have hn' : u'.num + 2 < usizeSize := hc.coarse.lawful.fits
  have hm : ∀ i, i < u.num → m (i + 1) ≠ 0 ∧ m (i + 1) < u'.num + 1 := by
    intro i hi
    have h1 := h0 (i + 1) (by omega)
    have h2 := hlast (i + 1) (by omega)
    have h3 := hc.into (i + 1) (by omega)
    omega
  have key : ∀ c, dom c → ∃ j, u.index c = .ok (some j) ∧ j < u.num + 2 ∨ u.index c = .ok none := by
    intro c hd
    obtain ⟨o, ho⟩ := hc.fine.total c hd
    cases o with
    | none => exact ⟨0, Or.inr ho⟩
    | some j => exact ⟨j, Or.inl ⟨ho, hc.fine.lawful.index_lt c j ho⟩⟩
  refine Coarser.of_index (C51_uniform_noflow hc.fine) (C51_uniform_noflow hc.coarse) (fun i hi => by have := hm i hi; omega) ?_ ?_
  · intro c i hd hi
    obtain ⟨j, ⟨hj, hjlt⟩ | hno⟩ := key c hd
    · obtain ⟨rfl, hin⟩ := ((C07_noflow_index u hn c j hj (by omega)).2.1 i).1 hi
      have h2 := hc.index_some hd (i := i + 1) hj
      have := hm i hin
      exact ((C07_noflow_index u' hn' (same c) _ h2 (by omega)).2.1 _).2 ⟨by omega, by omega⟩
    · have hi' : UniformNoFlow.index ⟨u⟩ c = .ok (some i) := hi
      unfold UniformNoFlow.index at hi'
      simp [hno, Uniform.numBins, uadd_ok hn] at hi'
  · intro c hd hi
    obtain ⟨j, ⟨hj, hjlt⟩ | hno⟩ := key c hd
    · have h1 := (C07_noflow_index u hn c j hj (by omega)).2.2.1.1 hi
      have h2 := hc.index_some hd (i := j) hj
      have h3 := hc.into j hjlt
      refine (C07_noflow_index u' hn' (same c) _ h2 (by omega)).2.2.1.2 ?_
      rcases h1 with h1 | h1
      · exact Or.inl ((h0 j hjlt).2 h1)
      · exact Or.inr ((hlast j hjlt).2 h1)
    · have h2 : u'.index (same c) = .ok none := hc.index_none hd hno
      show UniformNoFlow.index ⟨u'⟩ (same c) = .ok none
      unfold UniformNoFlow.index
      simp [h2, Uniform.numBins, uadd_ok hn']

variable {τ : IntTy}

/-- **C82 (uniform integer axes).** With `r` times as wide bins: the flow bins stay, inner bin number `k` consists of the `r` fine inner bins from number `k r` on (`⌈i/r⌉` numbers all of them). -/
theorem C82_uniform_int {num r : Nat} {low step step' : MInt τ} {a a' : Uniform (MInt τ)} (hr : 0 < r) (hstep : step'.val = r * step.val)
    (hnew : Uniform.withStepSize (num * r) low step = .ok (.ok a)) (hnew' : Uniform.withStepSize num low step' = .ok (.ok a'))
    (hfit : Cfg.checked = false → ((num * r : Nat) : ℤ) * step.val ≤ τ.max ∧ low.val + (num * r : Nat) * step.val ≤ τ.max)
    (hnum : num * r + 2 < usizeSize) (hbin : ((num * r : Nat) : ℤ) * ((num * r : Nat) * step.val) ≤ τ.max) :
    Coarser a (num * r + 2) (BinInterval.Covers (T := MInt τ)) a' (num + 2) (BinInterval.Covers (T := MInt τ)) id (fun _ => True) (fun i => (i + (r - 1)) / r) := by
  have hfit' : Cfg.checked = false → (num : ℤ) * step'.val ≤ τ.max ∧ low.val + num * step'.val ≤ τ.max := by
    intro h
    have := hfit h
    rw [hstep]
    push_cast at this
    rw [mul_assoc] at this
    exact this
  obtain ⟨-, -, hs, -, -⟩ := Uniform.withStepSize_ok hnew hfit
  have hnr : num ≤ num * r := Nat.le_mul_of_pos_right _ hr
  have hbin' : (num : ℤ) * (num * step'.val) ≤ τ.max := by
    refine le_trans ?_ hbin
    rw [hstep]
    push_cast
    have : (num : ℤ) ≤ num * r := by exact_mod_cast hnr
    rw [show (num : ℤ) * r * (num * r * step.val) = (num * r) * (num * (r * step.val)) by ring]
    exact mul_le_mul_of_nonneg_right this (by positivity)
  refine Coarser.of_index (C51_uniform_int hnew hfit hnum hbin) ((C51_uniform_int hnew' hfit' (by omega) hbin').mono fun _ _ => trivial) ?_ ?_ ?_
  · intro i hi
    show (i + (r - 1)) / r < num + 2
    rw [Nat.div_lt_iff_lt_mul hr, add_mul]
    omega
  · intro c i _ hi
    obtain ⟨i₁, hi₁, hle, h0, hl, hm⟩ := C01_uniform_int_index hnew hfit (by omega) c
    obtain ⟨j, hj, hle', h0', hl', hm'⟩ := C01_uniform_int_index hnew' hfit' (by omega) c
    rw [show Axis.index a c = a.index c from rfl, hi₁] at hi
    obtain rfl : i₁ = i := by simpa using hi
    rw [show Axis.index a' (id c) = a'.index c from rfl, hj]
    congr 2
    show j = (i₁ + (r - 1)) / r
    rcases Nat.eq_zero_or_pos i₁ with rfl | hpos
    · rw [h0'.2 (h0.1 rfl), Nat.zero_add, Nat.div_eq_of_lt (by omega)]
    · obtain ⟨k, rfl⟩ : ∃ k, i₁ = k + 1 := ⟨i₁ - 1, by omega⟩
      rw [show k + 1 + (r - 1) = k + r by omega, Nat.add_div_right _ hr]
      by_cases hk : k = num * r
      · subst hk
        rw [Nat.mul_div_cancel _ hr]
        refine hl'.2 ?_
        have := hl.1 rfl
        push_cast at this
        rw [hstep, ← mul_assoc]
        exact this
      · have hk : k < num * r := by omega
        have hkr : k / r < num := (Nat.div_lt_iff_lt_mul hr).2 hk
        obtain ⟨g1, g2⟩ := (hm k hk).1 rfl
        refine (hm' (k / r) hkr).2 ?_
        have d1 : k / r * r ≤ k := Nat.div_mul_le_self k r
        have d2 : k + 1 ≤ (k / r + 1) * r := by
          have := Nat.lt_div_mul_add (a := k) hr
          rw [add_mul]; omega
        have d1' : ((k / r : Nat) : ℤ) * r ≤ k := by exact_mod_cast d1
        have d2' : (k : ℤ) + 1 ≤ ((k / r : Nat) + 1) * r := by exact_mod_cast d2
        have e1 := mul_le_mul_of_nonneg_right d1' hs.le
        have e2 := mul_le_mul_of_nonneg_right d2' hs.le
        rw [hstep, ← mul_assoc, ← mul_assoc]
        constructor <;> linarith
  · intro c _ hi
    obtain ⟨i₁, hi₁, -⟩ := C01_uniform_int_index hnew hfit (by omega) c
    rw [show Axis.index a c = a.index c from rfl, hi₁] at hi
    cases hi

/-- If an axis without flow bins is coarser than another with the same bounds, so it is as a cyclic axis. -/
theorem UniformCyclic.coarser_of {T : Type} [RNum T] {u u' : Uniform T} {cov cov' covt covt' : BinInterval T → T → Prop} {dom dom₀ : T → Prop} {m : Nat → Nat}
    (hc : Coarser (UniformNoFlow.mk u) u.num cov (UniformNoFlow.mk u') u'.num cov' id dom₀ m) (hlow : u'.low = u.low) (hhigh : u'.high = u.high)
    (hf : FaithfulAxis (UniformCyclic.mk (UniformNoFlow.mk u)) u.num covt dom) (hf' : FaithfulAxis (UniformCyclic.mk (UniformNoFlow.mk u')) u'.num covt' dom)
    (hw : ∀ c x, dom c → wrapAround u.low u.high c = .ok x → dom₀ x) :
    Coarser (UniformCyclic.mk (UniformNoFlow.mk u)) u.num covt (UniformCyclic.mk (UniformNoFlow.mk u')) u'.num covt' id dom m := by
  have e : ∀ c : T, UniformCyclic.index ⟨⟨u⟩⟩ c = (wrapAround u.low u.high c >>= fun x => UniformNoFlow.index ⟨u⟩ x) := fun _ => rfl
  have e' : ∀ c : T, UniformCyclic.index ⟨⟨u'⟩⟩ c = (wrapAround u.low u.high c >>= fun x => UniformNoFlow.index ⟨u'⟩ x) := fun _ => by
    rw [← hlow, ← hhigh]; rfl
  refine Coarser.of_index hf (hf'.mono (by rintro _ ⟨c, hc, rfl⟩; exact hc)) hc.into ?_ ?_
  · intro (c : T) i hd hi
    have hi : UniformCyclic.index ⟨⟨u⟩⟩ c = .ok (some i) := hi
    show UniformCyclic.index ⟨⟨u'⟩⟩ c = .ok (some (m i))
    rw [e] at hi
    rw [e']
    rcases hx : wrapAround u.low u.high c with p | x
    · rw [hx] at hi; cases hi
    · rw [hx] at hi
      exact hc.index_some (hw c x hd hx) hi
  · intro (c : T) hd hi
    have hi : UniformCyclic.index ⟨⟨u⟩⟩ c = .ok none := hi
    show UniformCyclic.index ⟨⟨u'⟩⟩ c = .ok none
    rw [e] at hi
    rw [e']
    rcases hx : wrapAround u.low u.high c with p | x
    · rw [hx] at hi; cases hi
    · rw [hx] at hi
      exact hc.index_none (hw c x hd hx) hi
end

/-! ## Uniform float axes on a grid -/
section
variable [cfg : Cfg] {F : FFmt} {e z : ℤ} {w : ℕ}

theorem GridFits.coarser {num r : ℕ} (hg : GridFits F e z w (num * r)) : GridFits F e z (r * w) num := by
  have h0 := hg.num_pos
  have hr : 0 < r := Nat.pos_of_ne_zero (by rintro rfl; simp at h0)
  have hn : 0 < num := Nat.pos_of_ne_zero (by rintro rfl; simp at h0)
  refine ⟨hg.e_ge, hg.e_le, hn, Nat.mul_pos hr hg.w_pos, hg.low_le, ?_, ?_⟩
  · have := hg.high_le
    push_cast at this ⊢
    rwa [← mul_assoc]
  · refine le_trans ?_ hg.prod_le
    rw [← mul_assoc num r w]
    exact Nat.mul_le_mul_right _ (Nat.le_mul_of_pos_right _ hr)

theorem Uniform.index_ne_none {T : Type} [RNum T] (a : Uniform T) (c : T) : a.index c ≠ .ok none := by
  unfold Uniform.index
  split
  · intro h; cases h
  · split
    · rcases uadd a.num 1 with p | i
      · intro h; cases h
      · intro h; cases h
    · rcases RNum.sub c a.low with p | d
      · intro h; cases h
      rcases hq : RNum.div d a.step with p | q
      · rw [Res.ok_bind, hq]; intro h; cases h
      rw [Res.ok_bind, hq, Res.ok_bind]
      rcases uadd ((RNum.toUsize q).getD a.num) 1 with p | i
      · intro h; cases h
      · intro h; cases h

/-- **C82 (uniform float axes).** `r` times fewer bins between the same bounds, for coordinates on the grid of the axis (as for C76). -/
theorem C82_uniform_float {num r : ℕ} {low high : Flt F} {a a' : Uniform (Flt F)} (hg : GridFits F e z w (num * r)) (hl : low.isFin) (hl0 : low.val = z * pow2 e) (hh : high.isFin)
    (hh0 : high.val = (z + (num * r : ℕ) * w) * pow2 e) (hn : num * r + 2 < usizeSize) (hnew : Uniform.new (num * r) low high = .ok (.ok a)) (hnew' : Uniform.new num low high = .ok (.ok a')) :
    Coarser a (num * r + 2) BinInterval.Covers a' (num + 2) BinInterval.Covers id (GridCoord e low high) (fun i => (i + (r - 1)) / r) := by
  have hg' := hg.coarser
  have hr : 0 < r := Nat.pos_of_ne_zero (by rintro rfl; have := hg.num_pos; simp at this)
  have hnr : num ≤ num * r := Nat.le_mul_of_pos_right _ hr
  have hh0' : high.val = (z + num * (r * w : ℕ)) * pow2 e := by rw [hh0]; push_cast; ring
  have hF := (C76_uniform_new hg hl hl0 hh hh0 hn hnew).1
  have hF' := (C76_uniform_new hg' hl hl0 hh hh0' (by omega) hnew').1
  obtain ⟨h, hnum, hlow, hhigh⟩ := Uniform.grid_new hg hl hl0 hh hh0 hnew
  obtain ⟨h', hnum', hlow', hhigh'⟩ := Uniform.grid_new hg' hl hl0 hh hh0' hnew'
  refine Coarser.of_index hF (hF'.mono (by rintro _ ⟨c, hc, rfl⟩; exact hc)) ?_ ?_ ?_
  · intro i hi
    show (i + (r - 1)) / r < num + 2
    rw [Nat.div_lt_iff_lt_mul hr, add_mul]
    omega
  · rintro (c : Flt F) i ⟨hc, hx⟩ hi
    have hi : a.index c = .ok (some i) := hi
    show a'.index c = .ok (some ((i + (r - 1)) / r))
    by_cases h1 : POrd.lt c low = true
    · rw [Uniform.index_low (by rw [hlow]; exact h1)] at hi
      rw [Uniform.index_low (by rw [hlow']; exact h1)]
      obtain rfl : 0 = i := by simpa using hi
      rw [Nat.zero_add, Nat.div_eq_of_lt (by omega)]
    by_cases h2 : POrd.ge c high = true
    · rw [Uniform.index_high (by omega) (by rw [hlow]; simpa using h1) (by rw [hhigh]; exact h2), hnum] at hi
      rw [Uniform.index_high (by omega) (by rw [hlow']; simpa using h1) (by rw [hhigh']; exact h2), hnum']
      obtain rfl : num * r + 1 = i := by simpa using hi
      rw [show num * r + 1 + (r - 1) = num * r + r by omega, Nat.add_div_right _ hr, Nat.mul_div_cancel _ hr]
    have h1' : POrd.lt c low = false := by simpa using h1
    have h2' : POrd.ge c high = false := by simpa using h2
    rcases Uniform.mid_cases (a := a) (by rw [hlow]; exact hl) (by rw [hhigh]; rintro rfl; exact hh) (by rw [hlow]; exact h1') (by rw [hhigh]; exact h2') with rfl | ⟨hcf, hc1⟩
    · exact absurd rfl hc
    rw [hlow] at hc1
    have hc2 : c.val < high.val := by
      rw [Flt.ge_fin hcf hh] at h2'
      exact not_le.1 (of_decide_eq_false h2')
    obtain ⟨y, hy⟩ := hx (by rw [Flt.le_fin hl hcf]; exact decide_eq_true hc1) (by rw [Flt.lt_fin hcf hh]; exact decide_eq_true hc2)
    rw [← pow2_eq] at hy
    obtain ⟨k, hk, hidx, y1, y2⟩ := h.index_mid (by omega) hcf hy (by rw [hlow]; exact hc1) (by rw [hhigh]; exact hc2)
    obtain ⟨k', hk', hidx', y1', y2'⟩ := h'.index_mid (by omega) hcf hy (by rw [hlow']; exact hc1) (by rw [hhigh']; exact hc2)
    rw [hidx] at hi
    obtain rfl : k + 1 = i := by simpa using hi
    rw [hidx', show k + 1 + (r - 1) = k + r by omega, Nat.add_div_right _ hr]
    congr 3
    have hw : (0 : ℤ) < w := by exact_mod_cast hg.w_pos
    push_cast at y1' y2'
    have d1 : ((k' : ℤ) * r) * w < (k + 1) * w := by linarith [mul_assoc (k' : ℤ) r w]
    have d2 : (k : ℤ) * w < ((k' + 1) * r) * w := by linarith [mul_assoc ((k' : ℤ) + 1) r w]
    have d1 := lt_of_mul_lt_mul_right d1 hw.le
    have d2 := lt_of_mul_lt_mul_right d2 hw.le
    have d1 : k' * r < k + 1 := by exact_mod_cast d1
    have d2 : k < (k' + 1) * r := by exact_mod_cast d2
    symm
    rw [Nat.div_eq_iff hr]
    rw [add_mul] at d2
    omega
  · rintro (c : Flt F) hc hi
    have hi : a.index c = .ok none := hi
    exact absurd hi (Uniform.index_ne_none a c)

/-- **C82 (uniform float axes, no flow bins).** -/
theorem C82_uniform_float_noflow {num r : ℕ} {low high : Flt F} {a a' : UniformNoFlow (Flt F)} (hg : GridFits F e z w (num * r)) (hl : low.isFin) (hl0 : low.val = z * pow2 e) (hh : high.isFin)
    (hh0 : high.val = (z + (num * r : ℕ) * w) * pow2 e) (hn : num * r + 2 < usizeSize) (hnew : UniformNoFlow.new (num * r) low high = .ok (.ok a))
    (hnew' : UniformNoFlow.new num low high = .ok (.ok a')) :
    Coarser a (num * r) BinInterval.Covers a' num BinInterval.Covers id (GridCoord e low high) (fun i => i / r) := by
  have hr : 0 < r := Nat.pos_of_ne_zero (by rintro rfl; have := hg.num_pos; simp at this)
  have hc := C82_uniform_float hg hl hl0 hh hh0 hn (UniformNoFlow.new_inv hnew) (UniformNoFlow.new_inv hnew')
  have hh0' : high.val = (z + num * (r * w : ℕ)) * pow2 e := by rw [hh0]; push_cast; ring
  obtain ⟨-, hnum, -⟩ := Uniform.grid_new hg hl hl0 hh hh0 (UniformNoFlow.new_inv hnew)
  obtain ⟨-, hnum', -⟩ := Uniform.grid_new hg.coarser hl hl0 hh hh0' (UniformNoFlow.new_inv hnew')
  obtain ⟨u⟩ := a
  obtain ⟨u'⟩ := a'
  change u.num = _ at hnum
  change u'.num = _ at hnum'
  have hm : (fun i => i / r) = fun i => (i + 1 + (r - 1)) / r - 1 := by
    funext i
    rw [show i + 1 + (r - 1) = i + r by omega, Nat.add_div_right _ hr]
    rfl
  rw [hm, ← hnum, ← hnum']
  change Coarser u _ _ u' _ _ _ _ _ at hc
  rw [← hnum, ← hnum'] at hc
  refine C82_uniform_noflow hc ?_ ?_
  · intro i _
    rw [Nat.div_eq_zero_iff]
    omega
  · intro i hi
    rw [hnum] at hi ⊢
    rw [hnum', Nat.div_eq_iff hr, add_mul]
    omega

/-- **C82 (cyclic uniform float axes).** -/
theorem C82_uniform_float_cyclic {num r : ℕ} {low high : Flt F} {a a' : UniformCyclic (Flt F)} (hg : GridFits F e z w (num * r)) (hl : low.isFin) (hl0 : low.val = z * pow2 e) (hh : high.isFin)
    (hh0 : high.val = (z + (num * r : ℕ) * w) * pow2 e) (hn : num * r + 2 < usizeSize) (hnew : UniformCyclic.new (num * r) low high = .ok (.ok a))
    (hnew' : UniformCyclic.new num low high = .ok (.ok a')) :
    Coarser a (num * r) (BinInterval.CoversTurnsF (high.val - low.val)) a' num (BinInterval.CoversTurnsF (high.val - low.val)) id (GridTurns e low) (fun i => i / r) := by
  have hr : 0 < r := Nat.pos_of_ne_zero (by rintro rfl; have := hg.num_pos; simp at this)
  have hnr : num ≤ num * r := Nat.le_mul_of_pos_right _ hr
  have hg' := hg.coarser
  have hh0' : high.val = (z + num * (r * w : ℕ)) * pow2 e := by rw [hh0]; push_cast; ring
  obtain ⟨⟨u⟩⟩ := a
  obtain ⟨⟨u'⟩⟩ := a'
  have hu := UniformCyclic.new_inv hnew
  have hu' := UniformCyclic.new_inv hnew'
  have hc := C82_uniform_float_noflow (a := ⟨u⟩) (a' := ⟨u'⟩) hg hl hl0 hh hh0 hn (by unfold UniformNoFlow.new; rw [hu]; rfl) (by unfold UniformNoFlow.new; rw [hu']; rfl)
  obtain ⟨h, hnum, hlow, hhigh⟩ := Uniform.grid_new hg hl hl0 hh hh0 hu
  obtain ⟨h', hnum', hlow', hhigh'⟩ := Uniform.grid_new hg' hl hl0 hh hh0' hu'
  change u.num = _ at hnum
  change u'.num = _ at hnum'
  change u.low = _ at hlow
  change u'.low = _ at hlow'
  change u.high = _ at hhigh
  change u'.high = _ at hhigh'
  have hf := Uniform.OnGrid.cyclic h (show u.num + 2 < _ by omega)
  have hf' := Uniform.OnGrid.cyclic h' (show u'.num + 2 < _ by omega)
  change FaithfulAxis (UniformCyclic.mk (UniformNoFlow.mk u)) u.num _ _ at hf
  change FaithfulAxis (UniformCyclic.mk (UniformNoFlow.mk u')) u'.num _ _ at hf'
  have hfe : FaithfulAxis (UniformCyclic.mk (UniformNoFlow.mk u)) u.num (BinInterval.CoversTurnsF (high.val - low.val)) (GridTurns e low) := by
    rw [← hlow, ← hhigh]; exact hf
  have hfe' : FaithfulAxis (UniformCyclic.mk (UniformNoFlow.mk u')) u'.num (BinInterval.CoversTurnsF (high.val - low.val)) (GridTurns e low) := by
    rw [← hlow', ← hhigh']; exact hf'
  rw [← hnum, ← hnum'] at hc ⊢
  refine UniformCyclic.coarser_of hc (by rw [hlow, hlow']) (by rw [hhigh, hhigh']) hfe hfe' ?_
  intro c x hc hx
  rw [hlow, hhigh] at hx
  obtain ⟨y, hy, hyp⟩ := hc.int hl0
  obtain ⟨x', w1, x1, x2⟩ := wrapAround_grid (N := num * r * w) hg.e_ge hg.e_le hl hl0 hh
    (by rw [hh0]; push_cast; rfl) (Nat.mul_pos hg.num_pos hg.w_pos) hg.range_le hg.low_le
    (by exact_mod_cast hg.high_le) hc.1 hy hyp
  rw [w1] at hx
  obtain rfl : x' = x := by simpa using hx
  exact ⟨by rintro rfl; exact x1, fun _ _ => ⟨_, by rw [← pow2_eq]; exact x2⟩⟩
end

section
variable [cfg : Cfg] {τ : IntTy}

/-- **C82 (uniform integer axes, no flow bins).** -/
theorem C82_uniform_int_noflow {num r : Nat} {low step step' : MInt τ} {a a' : UniformNoFlow (MInt τ)} (hr : 0 < r) (hstep : step'.val = r * step.val)
    (hnew : UniformNoFlow.withStepSize (num * r) low step = .ok (.ok a)) (hnew' : UniformNoFlow.withStepSize num low step' = .ok (.ok a'))
    (hfit : Cfg.checked = false → ((num * r : Nat) : ℤ) * step.val ≤ τ.max ∧ low.val + (num * r : Nat) * step.val ≤ τ.max)
    (hnum : num * r + 2 < usizeSize) (hbin : ((num * r : Nat) : ℤ) * ((num * r : Nat) * step.val) ≤ τ.max) :
    Coarser a (num * r) (BinInterval.Covers (T := MInt τ)) a' num (BinInterval.Covers (T := MInt τ)) id (fun _ => True) (fun i => i / r) := by
  have hu := UniformNoFlow.withStepSize_inv hnew
  have hu' := UniformNoFlow.withStepSize_inv hnew'
  have hc := C82_uniform_int hr hstep hu hu' hfit hnum hbin
  have hfit' : Cfg.checked = false → (num : ℤ) * step'.val ≤ τ.max ∧ low.val + num * step'.val ≤ τ.max := by
    intro h
    have := hfit h
    rw [hstep]
    push_cast at this
    rw [mul_assoc] at this
    exact this
  have en : a.axis.num = num * r := (Uniform.withStepSize_ok hu hfit).2.2.2.2.1
  have en' : a'.axis.num = num := (Uniform.withStepSize_ok hu' hfit').2.2.2.2.1
  obtain ⟨u⟩ := a
  obtain ⟨u'⟩ := a'
  change u.num = _ at en
  change u'.num = _ at en'
  have hm : (fun i => i / r) = fun i => (i + 1 + (r - 1)) / r - 1 := by
    funext i
    rw [show i + 1 + (r - 1) = i + r by omega, Nat.add_div_right _ hr]
    rfl
  rw [hm, ← en, ← en']
  change Coarser u _ _ u' _ _ _ _ _ at hc
  rw [← en, ← en'] at hc
  refine C82_uniform_noflow hc ?_ ?_
  · intro i _
    rw [Nat.div_eq_zero_iff]
    omega
  · intro i hi
    rw [en] at hi ⊢
    rw [en', Nat.div_eq_iff hr, add_mul]
    omega

/-- **C82 (cyclic uniform integer axes).** -/
theorem C82_uniform_int_cyclic {num r : Nat} {low step step' : MInt τ} {a a' : UniformCyclic (MInt τ)} (hr : 0 < r) (hstep : step'.val = r * step.val)
    (hnew : UniformCyclic.withStepSize (num * r) low step = .ok (.ok a)) (hnew' : UniformCyclic.withStepSize num low step' = .ok (.ok a'))
    (hfit : Cfg.checked = false → ((num * r : Nat) : ℤ) * step.val ≤ τ.max ∧ low.val + (num * r : Nat) * step.val ≤ τ.max)
    (hnum : num * r + 2 < usizeSize) (hbin : ((num * r : Nat) : ℤ) * ((num * r : Nat) * step.val) ≤ τ.max) :
    Coarser a (num * r) (BinInterval.CoversTurns (τ := τ) ((num * r : Nat) * step.val)) a' num (BinInterval.CoversTurns (τ := τ) ((num * r : Nat) * step.val)) id
      (fun c : MInt τ => τ.min ≤ c.val - low.val ∧ c.val - low.val ≤ τ.max) (fun i => i / r) := by
  have hu := UniformCyclic.withStepSize_inv hnew
  have hu' := UniformCyclic.withStepSize_inv hnew'
  have eR : (num : ℤ) * step'.val = (num * r : Nat) * step.val := by rw [hstep]; push_cast; ring
  have hfit' : Cfg.checked = false → (num : ℤ) * step'.val ≤ τ.max ∧ low.val + num * step'.val ≤ τ.max := by rw [eR]; exact hfit
  have hnr : num ≤ num * r := Nat.le_mul_of_pos_right _ hr
  obtain ⟨-, -, hs, -, en, elow, -, ehigh⟩ := Uniform.withStepSize_ok hu hfit
  obtain ⟨-, -, -, -, en', elow', -, ehigh'⟩ := Uniform.withStepSize_ok hu' hfit'
  have hbin' : (num : ℤ) * (num * step'.val) ≤ τ.max := by
    rw [eR]
    refine le_trans (mul_le_mul_of_nonneg_right ?_ (by positivity)) hbin
    exact_mod_cast hnr
  have hf := C51_uniform_cyclic_int hnew hfit hnum hbin
  have hf' := C51_uniform_cyclic_int hnew' hfit' (by omega) hbin'
  rw [eR] at hf'
  obtain ⟨⟨u⟩⟩ := a
  obtain ⟨⟨u'⟩⟩ := a'
  have hc := C82_uniform_int_noflow (a := ⟨u⟩) (a' := ⟨u'⟩) hr hstep (by unfold UniformNoFlow.withStepSize; rw [hu]; rfl) (by unfold UniformNoFlow.withStepSize; rw [hu']; rfl) hfit hnum hbin
  change u.num = _ at en
  change u'.num = _ at en'
  change u.low = _ at elow
  change u'.low = _ at elow'
  change u.high.val = _ at ehigh
  change u'.high.val = _ at ehigh'
  have hhh : u'.high = u.high := MInt.ext (by rw [ehigh, ehigh', eR])
  generalize hK : ((num * r : Nat) : ℤ) * step.val = K at *
  rw [← en, ← en'] at hc ⊢
  rw [← en] at hf
  rw [← en'] at hf'
  exact UniformCyclic.coarser_of hc (by rw [elow, elow']) hhh hf hf' (fun _ _ _ _ => trivial)
end

/-! ## Category axes -/
section
variable [cfg : Cfg] {T T' : Type} [DecidableEq T] [DecidableEq T']

theorem Category.index_idxOf (values : List T) (hd : values.Nodup) (v : T) : (Category.new values).index v = .ok (some (values.idxOf v)) := by
  by_cases h : v ∈ values
  · exact (C16_category_index values hd v).1 _ (by rw [List.getElem?_eq_getElem (List.idxOf_lt_length_of_mem h)]; simp)
  · rw [(C16_category_index values hd v).2 h, List.idxOf_of_notMem h]

theorem mergeCategories_idxOf {values : List T} {values' : List T'} {f : T → T'} (hmap : ∀ c, f c ∈ values' ↔ c ∈ values) (v : T) :
    mergeCategories values values' f (values.idxOf v) = values'.idxOf (f v) := by
  unfold mergeCategories
  by_cases h : v ∈ values
  · rw [List.getElem?_eq_getElem (List.idxOf_lt_length_of_mem h)]
    simp
  · rw [List.idxOf_of_notMem h, List.getElem?_eq_none le_rfl, List.idxOf_of_notMem (fun h' => h ((hmap v).1 h'))]

/-- **C82 (categories).** Renaming categories, several possibly to the same name, merges the bins of those with the same new name. (With a permutation of the categories: their order does not matter.) -/
theorem C82_category {values : List T} {values' : List T'} (hd : values.Nodup) (hd' : values'.Nodup) (hmem : values.length + 1 < usizeSize) (hmem' : values'.length + 1 < usizeSize)
    (f : T → T') (hmap : ∀ c, f c ∈ values' ↔ c ∈ values) :
    Coarser (Category.new values) (values.length + 1) (SingleValueBinInterval.Covers values) (Category.new values') (values'.length + 1) (SingleValueBinInterval.Covers values') f
      (fun _ => True) (mergeCategories values values' f) := by
  refine Coarser.of_index (C51_category values hd hmem) ((C51_category values' hd' hmem').mono fun _ _ => trivial) ?_ ?_ ?_
  · intro i _
    unfold mergeCategories
    split
    · exact Nat.lt_succ_of_le List.idxOf_le_length
    · omega
  · intro (c : T) i _ hi
    have hi : (Category.new values).index c = .ok (some i) := hi
    rw [Category.index_idxOf values hd] at hi
    obtain rfl : values.idxOf c = i := by simpa using hi
    show (Category.new values').index (f c) = _
    rw [Category.index_idxOf values' hd', mergeCategories_idxOf hmap]
  · intro (c : T) _ hi
    have hi : (Category.new values).index c = .ok none := hi
    rw [Category.index_idxOf values hd] at hi
    cases hi

/-- **C82 (categories without overflow bin).** -/
theorem C82_category_noflow {values : List T} {values' : List T'} (hd : values.Nodup) (hd' : values'.Nodup) (hmem : values.length + 1 < usizeSize) (hmem' : values'.length + 1 < usizeSize)
    (f : T → T') (hmap : ∀ c, f c ∈ values' ↔ c ∈ values) :
    Coarser (CategoryNoFlow.new values) values.length (SingleValueBinInterval.Covers values) (CategoryNoFlow.new values') values'.length (SingleValueBinInterval.Covers values') f
      (fun _ => True) (mergeCategories values values' f) := by
  refine Coarser.of_index (C51_category_noflow values hd hmem) ((C51_category_noflow values' hd' hmem').mono fun _ _ => trivial) ?_ ?_ ?_
  · intro i hi
    unfold mergeCategories
    rw [List.getElem?_eq_getElem hi]
    exact List.idxOf_lt_length_of_mem ((hmap _).2 (List.getElem_mem hi))
  · intro (c : T) i _ hi
    have hi : (CategoryNoFlow.new values).index c = .ok (some i) := hi
    show (CategoryNoFlow.new values').index (f c) = _
    by_cases hc : c ∈ values
    · rw [((C18_category_noflow_index values hmem c).1 hc).1, Category.index_idxOf values hd] at hi
      obtain rfl : values.idxOf c = i := by simpa using hi
      rw [((C18_category_noflow_index values' hmem' (f c)).1 ((hmap c).2 hc)).1, Category.index_idxOf values' hd', mergeCategories_idxOf hmap]
    · rw [(C18_category_noflow_index values hmem c).2 hc] at hi
      cases hi
  · intro (c : T) _ hi
    have hi : (CategoryNoFlow.new values).index c = .ok none := hi
    show (CategoryNoFlow.new values').index (f c) = _
    by_cases hc : c ∈ values
    · obtain ⟨i, hi', -⟩ := ((C18_category_noflow_index values hmem c).1 hc).2
      rw [hi'] at hi
      cases hi
    · exact (C18_category_noflow_index values' hmem' (f c)).2 fun h => hc ((hmap c).1 h)
end
end NdHist
