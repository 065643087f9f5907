import Verif.Props.Reorder
import Verif.Props.Prog
/-!
# C97, continued: all forms of the operators, scalars, sparse histograms, equality
-/
set_option linter.unusedSectionVars false
namespace NdHist
section
variable [cfg : Cfg] {A A' V : Type} [Axis A] [Axis A'] {n : Nat} {f : Axis.Coordinate A → Axis.Coordinate A'} {g : Axis.Interval A → Axis.Interval A'}
  {dom : Axis.Coordinate A → Prop} {renumber : Nat → Nat}

/-- **C97 (operators, other forms).** `l + &r` and `l += &r` (and the other operators): one returns exactly if the other does, and the results agree. -/
theorem C97_forms [PEq A] [PEq A'] [ROps V] [LawfulROps V] (op : Op) {l r : VecHistogram A V} {l' r' : VecHistogram A' V} (hs : Renumbered l.axes l'.axes n f g dom renumber)
    (okl : l.Ok n) (okr : r.Ok n) (okl' : l'.Ok n) (okr' : r'.Ok n) (hax : PEq.peq l.axes r.axes = true) (hax' : PEq.peq l'.axes r'.axes = true)
    (hl : ∀ i, i < n → l'.valueAtIndex (renumber i) = l.valueAtIndex i) (hr : ∀ i, i < n → r'.valueAtIndex (renumber i) = r.valueAtIndex i) :
    ((∃ m, l.opOwned op r = .ok m) ↔ ∃ m', l'.opOwned op r' = .ok m') ∧
    (∀ m m', l.opOwned op r = .ok (.ok m) → l'.opOwned op r' = .ok (.ok m') → ∀ i, i < n → m'.valueAtIndex (renumber i) = m.valueAtIndex i) ∧
    ((l.opAssign op r).2 = none ↔ (l'.opAssign op r').2 = none) ∧
    ((l.opAssign op r).2 = none → ∀ i, i < n → (l'.opAssign op r').1.valueAtIndex (renumber i) = (l.opAssign op r).1.valueAtIndex i) := by
  obtain ⟨h1, h2⟩ := C97_binary op hs okl okr okl' okr' hax hax' hl hr
  obtain ⟨f1, f2, f3⟩ := C35_dense op okl okr
  obtain ⟨f1', f2', f3'⟩ := C35_dense op okl' okr'
  rcases hb : l.opBorrow op r with p | e | m
  · rcases hb' : l'.opBorrow op r' with p' | m'
    · rw [f1, f1', hb, hb', f3 p hb, f3' p' hb']; simp
    · obtain ⟨m, hm⟩ := h1.2 ⟨_, hb'⟩; rw [hb] at hm; cases hm
  · have := (C34_dense op l r).1.1 hb
    rw [hax] at this; cases this
  · obtain ⟨e', hb'⟩ := h1.1 ⟨_, hb⟩
    rcases e' with e' | m'
    · have := (C34_dense op l' r').1.1 hb'
      rw [hax'] at this; cases this
    · rw [f1, f1', f2 m hb, f2' m' hb', hb, hb']
      have := h2 m m' hb hb'
      refine ⟨by simp, ?_, by simp, fun _ => this⟩
      intro k k' hk hk'; cases hk; cases hk'; exact this

/-- **C97 (scalars).** `&h * &x` and the other operators. -/
theorem C97_scalar [ROps V] (op : Op) {h : VecHistogram A V} {h' : VecHistogram A' V} (hs : Renumbered h.axes h'.axes n f g dom renumber)
    (ok : h.Ok n) (ok' : h'.Ok n) (hv : ∀ i, i < n → h'.valueAtIndex (renumber i) = h.valueAtIndex i) (x : V) :
    ((∃ m, h.opScalar op x = .ok m) ↔ ∃ m', h'.opScalar op x = .ok m') ∧
    ∀ m m', h.opScalar op x = .ok m → h'.opScalar op x = .ok m' → ∀ i, i < n → m'.valueAtIndex (renumber i) = m.valueAtIndex i := by
  have get : ∀ {A : Type} [Axis A] {h : VecHistogram A V} {i x}, h.Ok n → h.valueAtIndex i = some x → i < n := by
    intro A _ h i x ok e
    rw [← ok.size]
    exact (List.getElem?_eq_some_iff.1 e).1
  rcases C36_scalar op ok x with ⟨m, m1, -, -, m4⟩ | ⟨p, i, v, e1, e2, e3⟩ <;>
    rcases C36_scalar op ok' x with ⟨m', m1', -, -, m4'⟩ | ⟨p', j, v', e1', e2', e3'⟩
  · refine ⟨⟨fun _ => ⟨_, m1'⟩, fun _ => ⟨_, m1⟩⟩, fun k k' hk hk' i hi => ?_⟩
    rw [m1] at hk; rw [m1'] at hk'
    cases hk; cases hk'
    obtain ⟨v, hv1⟩ := ok.get hi
    obtain ⟨z, z1, z2⟩ := m4 i v hv1
    obtain ⟨z', z1', z2'⟩ := m4' (renumber i) v (by rw [hv i hi]; exact hv1)
    rw [z1] at z1'; cases z1'
    rw [z2, z2']
  · exfalso
    obtain ⟨i, hi, rfl⟩ := hs.surj (get ok' e2')
    rw [hv i hi] at e2'
    obtain ⟨z, z1, -⟩ := m4 i v' e2'
    rw [z1] at e3'; cases e3'
  · exfalso
    obtain ⟨z, z1, -⟩ := m4' (renumber i) v (by rw [hv i (get ok e2)]; exact e2)
    rw [z1] at e3; cases e3
  · refine ⟨⟨?_, ?_⟩, ?_⟩
    · rintro ⟨m, hm⟩; rw [e1] at hm; cases hm
    · rintro ⟨m, hm⟩; rw [e1'] at hm; cases hm
    · intro m m' hm; rw [e1] at hm; cases hm

/-- a statement about all bins, read in the other order -/
theorem Renumbered.all_iff {a : A} {a' : A'} (hs : Renumbered a a' n f g dom renumber) {P Q : Nat → Prop} (h : ∀ i, i < n → (P (renumber i) ↔ Q i)) :
    (∀ j, j < n → P j) ↔ ∀ i, i < n → Q i := by
  constructor
  · intro hp i hi; exact (h i hi).1 (hp _ (hs.lt i hi))
  · intro hq j hj
    obtain ⟨i, hi, rfl⟩ := hs.surj hj
    exact (h i hi).2 (hq i hi)

/-- **C97 (operators, sparse).** The same for sparse histograms and all forms, whatever the orders of iteration. -/
theorem C97_binary_sparse [PEq A] [PEq A'] [ROps V] [LawfulROps V] [RDefault V] (op : Op) {l r : HashHistogram A V} {l' r' : HashHistogram A' V} (hs : Renumbered l.axes l'.axes n f g dom renumber)
    (okl : l.Ok n) (okr : r.Ok n) (okl' : l'.Ok n) (okr' : r'.Ok n) (hax : PEq.peq l.axes r.axes = true) (hax' : PEq.peq l'.axes r'.axes = true)
    (hl : ∀ i, i < n → l'.valueAtIndex (renumber i) = l.valueAtIndex i) (hr : ∀ i, i < n → r'.valueAtIndex (renumber i) = r.valueAtIndex i)
    (ko : HashHistogram.KeyOrder l r) (ko' : HashHistogram.KeyOrder l' r') (ro : r.values.Order) (ro' : r'.values.Order) :
    ((∃ m, l.opBorrow op r ko = .ok (.ok m)) ↔ ∃ m', l'.opBorrow op r' ko' = .ok (.ok m')) ∧
    (∀ m m', l.opBorrow op r ko = .ok (.ok m) → l'.opBorrow op r' ko' = .ok (.ok m') → ∀ i, i < n → m'.valueAtIndex (renumber i) = m.valueAtIndex i) ∧
    ((∃ m, l.opOwned op r ro = .ok (.ok m)) ↔ ∃ m', l'.opOwned op r' ro' = .ok (.ok m')) ∧
    (∀ m m', l.opOwned op r ro = .ok (.ok m) → l'.opOwned op r' ro' = .ok (.ok m') → ∀ i, i < n → m'.valueAtIndex (renumber i) = m.valueAtIndex i) ∧
    ((l.opAssign op r ro).2 = none ↔ (l'.opAssign op r' ro').2 = none) ∧
    ((l.opAssign op r ro).2 = none → ∀ i, i < n → (l'.opAssign op r' ro').1.valueAtIndex (renumber i) = (l.opAssign op r ro).1.valueAtIndex i) := by
  have lt : ∀ {A : Type} [Axis A] {h : HashHistogram A V} {i}, h.Ok n → h.valueAtIndex i ≠ none → i < n := by
    intro A _ h i ok e
    exact ok.valid i (by by_contra hk; exact e ((HMap.get_eq_none _ _).2 hk))
  have dep : ∀ {P : Nat → Prop} {Q : Nat → Prop}, (∀ i, P i → i < n) → ((∀ i, P i → Q i) ↔ ∀ i, i < n → (P i → Q i)) :=
    fun hp => ⟨fun h i _ => h i, fun h i hi => h i (hp i hi) hi⟩
  obtain ⟨x1, x2, x3, -⟩ := C35_sparse_exact op okl okr hax ko ro
  obtain ⟨y1, y2, y3, -⟩ := C35_sparse_exact op okl' okr' hax' ko' ro'
  have howned : (∃ m, l.opOwned op r ro = .ok (.ok m)) ↔ ∃ m', l'.opOwned op r' ro' = .ok (.ok m') := by
    rw [x2, y2]
    refine (dep fun i h => lt okr h).trans (Iff.trans (Iff.symm (hs.all_iff ?_)) (dep fun i h => lt okr' h).symm)
    intro i hi
    rw [hl i hi, hr i hi]
  have hassign : ∀ m m', l.opAssign op r ro = (m, none) → l'.opAssign op r' ro' = (m', none) → ∀ i, i < n → m'.valueAtIndex (renumber i) = m.valueAtIndex i := by
    intro m m' hm hm' i hi
    obtain ⟨-, -, a1, a2⟩ := C33_assign_sparse op okl okr ro hm
    obtain ⟨-, -, b1, b2⟩ := C33_assign_sparse op okl' okr' ro' hm'
    have e := hr i hi
    cases hy : r.valueAtIndex i with
    | none =>
      rw [hy] at e
      rw [a1 i hy, b1 _ e, hl i hi]
    | some y =>
      rw [hy] at e
      obtain ⟨z, z1, z2⟩ := a2 i y hy
      obtain ⟨z', z1', z2'⟩ := b2 _ y e
      rw [hl i hi, z1] at z1'; cases z1'
      rw [z2, z2']
  have hex : ∀ {A : Type} [Axis A] [PEq A] {l r : HashHistogram A V} {ro : r.values.Order}, (∀ m, l.opOwned op r ro = .ok (.ok m) ↔ l.opAssign op r ro = (m, none)) →
      ((l.opAssign op r ro).2 = none ↔ ∃ m, l.opOwned op r ro = .ok (.ok m)) := by
    intro A _ _ l r ro h
    constructor
    · intro e; exact ⟨_, (h (l.opAssign op r ro).1).2 (Prod.ext rfl e)⟩
    · rintro ⟨m, hm⟩; rw [(h m).1 hm]
  refine ⟨?_, ?_, howned, ?_, by rw [hex x3, hex y3, howned], ?_⟩
  · rw [x1, y1]
    refine (dep fun i h => h.elim (lt okl) (lt okr)).trans (Iff.trans (Iff.symm (hs.all_iff ?_)) (dep fun i h => h.elim (lt okl') (lt okr')).symm)
    intro i hi
    rw [hl i hi, hr i hi]
  · intro m m' hm hm' i hi
    obtain ⟨-, -, a⟩ := C33_binwise_sparse op okl okr ko hm
    obtain ⟨-, -, b⟩ := C33_binwise_sparse op okl' okr' ko' hm'
    have h1 := a i
    have h2 := b (renumber i)
    rw [hl i hi, hr i hi, h1] at h2
    exact (Except.ok.inj h2).symm
  · intro m m' hm hm'
    exact hassign m m' ((x3 m).1 hm) ((y3 m').1 hm')
  · intro e
    have e' := (hex y3).2 (howned.1 ((hex x3).1 e))
    exact hassign _ _ (Prod.ext rfl e) (Prod.ext rfl e')

/-- **C97 (equality).** Two histograms with equal axes are `==` exactly if their reordered versions are, dense and sparse. -/
theorem C97_equal [PEq A] [PEq A'] [PEq V] {h k : VecHistogram A V} {h' k' : VecHistogram A' V} (hs : Renumbered h.axes h'.axes n f g dom renumber)
    (okh : h.Ok n) (okk : k.Ok n) (okh' : h'.Ok n) (okk' : k'.Ok n) (hax : PEq.peq h.axes k.axes = PEq.peq h'.axes k'.axes)
    (hv : ∀ i, i < n → h'.valueAtIndex (renumber i) = h.valueAtIndex i) (hw : ∀ i, i < n → k'.valueAtIndex (renumber i) = k.valueAtIndex i) :
    h'.beq k' = h.beq k := by
  rw [Bool.eq_iff_iff, C45_dense okh okk, C45_dense okh' okk', hax]
  apply and_congr_right
  intro _
  apply hs.all_iff
  intro i hi
  rw [hv i hi, hw i hi]

/-- **C97 (equality, sparse).** -/
theorem C97_equal_sparse [PEq A] [PEq A'] [PEq V] {h k : HashHistogram A V} {h' k' : HashHistogram A' V} (hs : Renumbered h.axes h'.axes n f g dom renumber)
    (okh : h.Ok n) (okk : k.Ok n) (okh' : h'.Ok n) (okk' : k'.Ok n) (hax : PEq.peq h.axes k.axes = PEq.peq h'.axes k'.axes)
    (hv : ∀ i, i < n → h'.valueAtIndex (renumber i) = h.valueAtIndex i) (hw : ∀ i, i < n → k'.valueAtIndex (renumber i) = k.valueAtIndex i) :
    h'.beq k' = h.beq k := by
  have none_of : ∀ {A : Type} [Axis A] {h : HashHistogram A V} {i}, h.Ok n → ¬ i < n → h.valueAtIndex i = none := by
    intro A _ h i ok hi
    by_contra e
    exact hi (ok.valid i (by by_contra hk; exact e ((HMap.get_eq_none _ _).2 hk)))
  have red : ∀ {A : Type} [Axis A] {h k : HashHistogram A V}, h.Ok n → k.Ok n →
      ((∀ i, OptEq (h.valueAtIndex i) (k.valueAtIndex i)) ↔ ∀ i, i < n → OptEq (h.valueAtIndex i) (k.valueAtIndex i)) := by
    intro A _ h k okh okk
    refine ⟨fun e i _ => e i, fun e i => ?_⟩
    by_cases hi : i < n
    · exact e i hi
    · rw [none_of okh hi, none_of okk hi]; trivial
  rw [Bool.eq_iff_iff, C45_sparse okh okk, C45_sparse okh' okk', hax, red okh okk, red okh' okk']
  apply and_congr_right
  intro _
  apply hs.all_iff
  intro i hi
  rw [hv i hi, hw i hi]
end
end NdHist
