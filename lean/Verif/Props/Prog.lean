import Verif.SpecProg
import Verif.Props.Reachable
import Verif.Props.Access
import Verif.Props.MergeFill
/-!
# C35 (exact form) and C71: the operator forms and the two kinds of histogram compared
-/
namespace NdHist

theorem bind_pure_error {α β : Type} {r : Res α} {g : α → β} {p : Panic} (h : (r >>= fun a => pure (g a)) = .error p) : r = .error p := by
  cases r with
  | error q => simpa [bind, Except.bind] using h
  | ok a => cases h

section
variable {A V : Type} [Cfg] [Axis A] [PEq A] [ROps V] [RDefault V]

/-- the value of a bin, the default if the histogram has none -/
def HashHistogram.valueOr (h : HashHistogram A V) (i : Nat) : V := (h.valueAtIndex i).getD RDefault.dflt

theorem HashHistogram.mem_keys {h : HashHistogram A V} {i : Nat} : i ∈ h.values.keys ↔ h.valueAtIndex i ≠ none := by
  rw [HashHistogram.valueAtIndex, Ne, HMap.get_eq_none, not_not]

theorem HashHistogram.opBorrow_panic {o : Op} {l r : HashHistogram A V} (hax : PEq.peq l.axes r.axes = true)
    (ko : HashHistogram.KeyOrder l r) {p : Panic} (h : l.opBorrow o r ko = .error p) :
    ∃ i, (l.valueAtIndex i ≠ none ∨ r.valueAtIndex i ≠ none) ∧ ROps.op o (l.valueOr i) (r.valueOr i) = .error p := by
  simp only [HashHistogram.opBorrow, hax, Bool.true_eq_false, if_false] at h
  obtain ⟨i, h2, h3⟩ := mapM_error (bind_pure_error h)
  refine ⟨i, ?_, ?_⟩
  · rw [← HashHistogram.mem_keys, ← HashHistogram.mem_keys]; exact (ko.mem_iff i).1 h2
  · rw [← HashHistogram.valueAtIndex, ← HashHistogram.valueAtIndex] at h3
    have hm := (ko.mem_iff i).1 h2
    rw [HashHistogram.mem_keys, HashHistogram.mem_keys] at hm
    unfold HashHistogram.valueOr
    revert h3 hm
    cases l.valueAtIndex i <;> cases r.valueAtIndex i <;> intro h3 hm
    · simp at hm
    all_goals exact bind_pure_error h3

variable [LawfulROps V]

theorem HashHistogram.opAssign_panic {o : Op} {l r : HashHistogram A V} {n : Nat} (hl : l.Ok n) (hr : r.Ok n)
    (hax : PEq.peq l.axes r.axes = true) (ro : r.values.Order) {p : Panic} (h : (l.opAssign o r ro).2 = some p) :
    ∃ i, r.valueAtIndex i ≠ none ∧ ROps.op o (l.valueOr i) (r.valueOr i) = .error p := by
  obtain ⟨-, -, done, k, y, rest, e, h1, -, h2, -⟩ := C55_assign_sparse o (m := (l.opAssign o r ro).1) hl hr (Nat.le_refl _) hax ro
    (by rw [← h])
  have hk : r.valueAtIndex k = some y := by
    have : (k, y) ∈ r.values.entries := by rw [← ro.perm.mem_iff, e]; simp
    exact (HMap.mem_entries_iff hr.nodup _ _).1 this
  refine ⟨k, by rw [hk]; simp, ?_⟩
  rw [HashHistogram.valueOr, HashHistogram.valueOr, hk]
  exact h1

/-- **C35 (sparse, exact).** When the forms of an operation on sparse histograms panic, and when they agree. `&l op &r` computes every bin
that either has, `l op &r` and `l op= &r` only the bins that `r` has (a missing value being the default); each panics exactly if one
of the bins it computes does. If they return, they differ in exactly those bins that only `l` has and in which the default as right
operand is not neutral. -/
theorem C35_sparse_exact (o : Op) {l r : HashHistogram A V} {n : Nat} (hl : l.Ok n) (hr : r.Ok n)
    (hax : PEq.peq l.axes r.axes = true) (ko : HashHistogram.KeyOrder l r) (ro : r.values.Order) :
    ((∃ m, l.opBorrow o r ko = .ok (.ok m)) ↔
      ∀ i, (l.valueAtIndex i ≠ none ∨ r.valueAtIndex i ≠ none) →
        ∃ z, ROps.op o ((l.valueAtIndex i).getD RDefault.dflt) ((r.valueAtIndex i).getD RDefault.dflt) = .ok z) ∧
    ((∃ m, l.opOwned o r ro = .ok (.ok m)) ↔
      ∀ i, r.valueAtIndex i ≠ none →
        ∃ z, ROps.op o ((l.valueAtIndex i).getD RDefault.dflt) ((r.valueAtIndex i).getD RDefault.dflt) = .ok z) ∧
    (∀ m, l.opOwned o r ro = .ok (.ok m) ↔ l.opAssign o r ro = (m, none)) ∧
    ∀ m m', l.opBorrow o r ko = .ok (.ok m) → l.opOwned o r ro = .ok (.ok m') →
      m.axes = m'.axes ∧ ∀ i, m.valueAtIndex i ≠ m'.valueAtIndex i ↔
        ∃ x, l.valueAtIndex i = some x ∧ r.valueAtIndex i = none ∧ ROps.op o x RDefault.dflt ≠ .ok x := by
  have howned : ∀ m, l.opOwned o r ro = .ok (.ok m) ↔ l.opAssign o r ro = (m, none) :=
    fun m => (C35_sparse_owned_assign o ro m hax).1
  refine ⟨⟨?_, ?_⟩, ⟨?_, ?_⟩, howned, ?_⟩
  · rintro ⟨m, hm⟩ i hi
    obtain ⟨-, -, h⟩ := C33_binwise_sparse o hl hr ko hm
    have := h i
    rcases hx : l.valueAtIndex i with _ | x <;> rcases hy : r.valueAtIndex i with _ | y <;>
      simp only [hx, hy, ne_eq, not_true_eq_false, or_self, HashHistogram.merged] at hi this
    all_goals
      simp only [Option.getD_some, Option.getD_none] at this ⊢
      revert this
      rcases ROps.op o _ _ with p | z
      · intro h; cases h
      · intro _; exact ⟨z, rfl⟩
  · intro h
    rcases hb : l.opBorrow o r ko with p | e | m
    · obtain ⟨i, h1, h2⟩ := HashHistogram.opBorrow_panic hax ko hb
      obtain ⟨z, hz⟩ := h i h1
      rw [HashHistogram.valueOr, HashHistogram.valueOr, hz] at h2
      cases h2
    · have := (C34_sparse o l r ko ro).1.1 hb
      rw [hax] at this; cases this
    · exact ⟨m, rfl⟩
  · rintro ⟨m, hm⟩ i hi
    rw [howned] at hm
    obtain ⟨-, -, -, h⟩ := C33_assign_sparse o hl hr ro hm
    rcases hy : r.valueAtIndex i with _ | y
    · exact absurd hy hi
    · obtain ⟨z, hz, -⟩ := h i y hy
      exact ⟨z, hz⟩
  · intro h
    rcases hb : (l.opAssign o r ro).2 with _ | p
    · exact ⟨_, (howned _).2 (Prod.ext rfl hb)⟩
    · obtain ⟨i, h1, h2⟩ := HashHistogram.opAssign_panic hl hr hax ro hb
      obtain ⟨z, hz⟩ := h i h1
      rw [HashHistogram.valueOr, HashHistogram.valueOr, hz] at h2
      cases h2
  · intro m m' hm hm'
    rw [howned] at hm'
    obtain ⟨-, a1, a2⟩ := C33_binwise_sparse o hl hr ko hm
    obtain ⟨-, b1, b2, b3⟩ := C33_assign_sparse o hl hr ro hm'
    refine ⟨by rw [a1, b1], fun i => ?_⟩
    have := a2 i
    rcases hy : r.valueAtIndex i with _ | y
    · rw [b2 i hy]
      rw [hy] at this
      rcases hx : l.valueAtIndex i with _ | x
      · rw [hx] at this
        simp only [HashHistogram.merged, Except.ok.injEq] at this
        simp [← this]
      · rw [hx] at this
        simp only [HashHistogram.merged, Option.getD_some, Option.getD_none] at this
        rcases hop : ROps.op o x RDefault.dflt with p | z
        · rw [hop] at this; cases this
        · rw [hop] at this
          simp only [Except.map, Except.ok.injEq] at this
          simp [← this, hop]
    · obtain ⟨z, h1, h2⟩ := b3 i y hy
      rw [hy] at this
      have e : m.valueAtIndex i = m'.valueAtIndex i := by
        rw [h2]
        rcases hx : l.valueAtIndex i with _ | x <;> rw [hx] at this h1 <;>
          simp only [Option.getD_some, Option.getD_none] at h1 <;>
          simp only [HashHistogram.merged, Option.getD_some, Option.getD_none, h1, Except.map, Except.ok.injEq] at this <;> exact this.symm
      simp [e]


/-! ## C71 -/

theorem SameContent.getD {d : VecHistogram A V} {s : HashHistogram A V} (h : SameContent d s) {n : Nat} (hd : d.Ok n) (hs : s.Ok n) (i : Nat) :
    (d.valueAtIndex i).getD RDefault.dflt = (s.valueAtIndex i).getD RDefault.dflt := by
  rcases hv : d.valueAtIndex i with _ | v
  · have h1 := hd.get_none.1 hv
    have : s.valueAtIndex i = none := by
      by_contra hc
      rw [← ne_eq, ← HashHistogram.mem_keys] at hc
      have := hs.valid i hc
      omega
    rw [this]
  · rw [h.value i v hv]; rfl

theorem SameContent.none {d : VecHistogram A V} {s : HashHistogram A V} {n : Nat} (hd : d.Ok n) (hs : s.Ok n) {i : Nat}
    (hv : d.valueAtIndex i = none) : s.valueAtIndex i = none := by
  have h1 := hd.get_none.1 hv
  by_contra hc
  rw [← ne_eq, ← HashHistogram.mem_keys] at hc
  have := hs.valid i hc
  omega

variable {P : A → Prop} {Q : V → Prop}

theorem Alike.call {d : VecHistogram A V} {s : HashHistogram A V} (h : Alike P Q d s) (c : Call V (Axis.Coordinate A))
    (hc : ∀ v, Q v → Q (c.on v).1) :
    (d.call c).2 = (s.call c).2 ∧ Alike P Q (d.call c).1 (s.call c).1 := by
  obtain ⟨hP, ⟨n, hd, hs⟩, ⟨hax, hv⟩, hQ⟩ := h
  refine ⟨?_, by rw [d.call_axes]; exact hP, ⟨n, hd.call c, hs.call c⟩, ⟨by rw [d.call_axes, s.call_axes, hax], ?_⟩, ?_⟩
  · rcases hi : Axis.index d.axes c.coord with p | _ | i
    · rw [VecHistogram.call_error hi, s.call_eq, ← hax, hi]
    · rw [VecHistogram.call_none hi, s.call_eq, ← hax, hi]
    · obtain ⟨v, hvi⟩ := hd.get (hd.lawful.index_lt _ _ hi)
      rw [VecHistogram.call_some hi hvi, s.call_eq, ← hax, hi]
      have := hv i v hvi
      simp only [HashHistogram.entryUpd]
      rw [show s.values.get i = s.valueAtIndex i from rfl, this]
  · intro i v
    rw [d.call_get, s.call_get, ← hax]
    split
    · intro h
      rw [Option.map_eq_some_iff] at h
      obtain ⟨w, hw, rfl⟩ := h
      rw [hv i w hw]; rfl
    · exact hv i v
  · intro i v
    rw [d.call_get]
    split
    · intro h
      rw [Option.map_eq_some_iff] at h
      obtain ⟨w, hw, rfl⟩ := h
      exact hc _ (hQ i w hw)
    · exact hQ i v

theorem Alike.value {d : VecHistogram A V} {s : HashHistogram A V} (h : Alike P Q d s) (c : Axis.Coordinate A) :
    (d.value c).map (·.getD RDefault.dflt) = (s.value c).map (·.getD RDefault.dflt) := by
  obtain ⟨hP, ⟨n, hd, hs⟩, hsame, hQ⟩ := h
  simp only [VecHistogram.value, HashHistogram.value, ← hsame.axes]
  rcases hi : Axis.index d.axes c with p | _ | i
  · rfl
  · rfl
  · exact congrArg Except.ok (hsame.getD hd hs i)

theorem Alike.valueMut {d : VecHistogram A V} {s : HashHistogram A V} (h : Alike P Q d s) (c : Axis.Coordinate A) (f : Upd V)
    (hf : f RDefault.dflt = (RDefault.dflt, none)) (hfQ : ∀ v, Q v → Q (f v).1) :
    match d.valueMut c f, s.valueMut c f with
    | .error p, .error q => p = q
    | .ok none, .ok none => True
    | .ok (some r), .ok none => r.2 = none ∧ Alike P Q r.1 s
    | .ok (some r), .ok (some r') => r.2 = r'.2 ∧ Alike P Q r.1 r'.1
    | _, _ => False := by
  obtain ⟨hP, ⟨n, hd, hs⟩, hsame, hQ⟩ := h
  simp only [VecHistogram.valueMut, HashHistogram.valueMut, ← hsame.axes]
  rcases hi : Axis.index d.axes c with p | _ | i
  · simp [bind, Except.bind]
  · simp [bind, Except.bind, pure, Except.pure]
  · simp only [bind, Except.bind, pure, Except.pure]
    obtain ⟨v, hvi⟩ := hd.get (hd.lawful.index_lt _ _ hi)
    obtain ⟨h', e1, e2, e3, e4, e5⟩ := (C38_value_at_index_mut hd i f).2 v hvi
    have hv := hsame.value i v hvi
    have hq : ∀ j w, h'.valueAtIndex j = some w → Q w := by
      intro j w hj
      by_cases hij : j = i
      · subst hij
        rw [e4] at hj
        simp only [Option.some.injEq] at hj
        rw [← hj]; exact hfQ _ (hQ _ _ hvi)
      · rw [e5 j hij] at hj
        exact hQ j w hj
    rw [e1]
    rcases hsi : s.valueAtIndex i with _ | w
    · rw [((C38_value_at_index_mut_sparse hs i f).1).2 hsi]
      rw [hsi] at hv
      simp only [Option.getD_none] at hv
      subst hv
      simp only [hf, true_and]
      refine ⟨by rw [e2]; exact hP, ⟨n, e3, hs⟩, ⟨by rw [e2, hsame.axes], ?_⟩, hq⟩
      intro j w hj
      by_cases hij : j = i
      · subst hij
        rw [e4, hf] at hj
        simp only [Option.some.injEq] at hj
        rw [hsi, ← hj]; rfl
      · rw [e5 j hij] at hj
        exact hsame.value j w hj
    · obtain ⟨s', f1, f2, f3, f4, f5⟩ := (C38_value_at_index_mut_sparse hs i f).2 w hsi
      rw [hsi] at hv
      simp only [Option.getD_some] at hv
      subst hv
      rw [f1]
      simp only [true_and]
      refine ⟨by rw [e2]; exact hP, ⟨n, e3, f3⟩, ⟨by rw [e2, f2, hsame.axes], ?_⟩, hq⟩
      intro j u hj
      by_cases hij : j = i
      · subst hij
        rw [e4] at hj
        simp only [Option.some.injEq] at hj
        rw [f4, ← hj]; rfl
      · rw [e5 j hij] at hj
        rw [f5 j hij]
        exact hsame.value j u hj

theorem Alike.iterMut {d : VecHistogram A V} {s : HashHistogram A V} (h : Alike P Q d s) (f : Nat → Axis.Interval A → Upd V)
    (hf : ∀ i b, f i b RDefault.dflt = (RDefault.dflt, none)) (hfQ : ∀ i b v, Q v → Q (f i b v).1) (o : s.values.Order) :
    ((d.iterMut f).2 = none ↔ (s.iterMut o f).2 = none) ∧
    ((d.iterMut f).2 = none → Alike P Q (d.iterMut f).1 (s.iterMut o f).1) := by
  obtain ⟨hP, ⟨n, hd, hs⟩, hsame, hQ⟩ := h
  obtain ⟨a1, a2, a3, a4⟩ := C38_iter_mut hd f
  obtain ⟨b1, b2, b3, b4⟩ := C38_iter_mut_sparse hs o f
  have hiff : (d.iterMut f).2 = none ↔ (s.iterMut o f).2 = none := by
    rw [b3]
    constructor
    · intro h i b v hb hv
      rw [← hsame.axes] at hb
      have hin : i < n := hs.valid i (HashHistogram.mem_keys.2 (by rw [hv]; simp))
      obtain ⟨w, hw⟩ := hd.get hin
      have := hsame.value i w hw
      rw [hv] at this
      simp only [Option.getD_some] at this
      subst this
      exact (a3 h i b v hb hw).1
    · intro h
      rcases hp : (d.iterMut f).2 with _ | p
      · rfl
      · obtain ⟨k, b, v, hb, hv, hfk, -⟩ := a4 p hp
        have := hsame.value k v hv
        rcases hsk : s.valueAtIndex k with _ | w
        · rw [hsk] at this
          simp only [Option.getD_none] at this
          subst this
          rw [hf] at hfk; cases hfk
        · rw [hsk] at this
          simp only [Option.getD_some] at this
          subst this
          have := h k b w (by rw [← hsame.axes]; exact hb) hsk
          rw [this] at hfk; cases hfk
  refine ⟨hiff, fun hn => ⟨by rw [a1]; exact hP, ⟨n, a2, b2⟩, ⟨by rw [a1, b1, hsame.axes], ?_⟩, ?_⟩⟩
  swap
  · intro i v hv
    have hin : i < n := by
      by_contra hc
      rw [(a2.get_none).2 (by omega)] at hv; cases hv
    obtain ⟨w, hw⟩ := hd.get hin
    obtain ⟨b, hb⟩ := hd.lawful.bin_some i hin
    rw [(a3 hn i b w hb hw).2] at hv
    simp only [Option.some.injEq] at hv
    rw [← hv]; exact hfQ _ _ _ (hQ i w hw)
  intro i v hv
  have hin : i < n := by
    by_contra hc
    rw [(a2.get_none).2 (by omega)] at hv; cases hv
  obtain ⟨w, hw⟩ := hd.get hin
  obtain ⟨b, hb⟩ := hd.lawful.bin_some i hin
  have hv' := (a3 hn i b w hb hw).2
  rw [hv'] at hv
  simp only [Option.some.injEq] at hv
  have hsv := hsame.value i w hw
  obtain ⟨c1, c2⟩ := b4 (hiff.1 hn)
  rcases hsk : s.valueAtIndex i with _ | u
  · rw [hsk] at hsv
    simp only [Option.getD_none] at hsv
    rw [c2 i hsk, ← hv, ← hsv, hf]; rfl
  · rw [hsk] at hsv
    simp only [Option.getD_some] at hsv
    rw [c1 i b u (by rw [← hsame.axes]; exact hb) hsk, ← hv, ← hsv]; rfl


theorem Alike.opBorrow (hA : ∀ x y : A, P x → P y → PEq.peq x y = true → Axis.numBins x = Axis.numBins y)
    {d d' : VecHistogram A V} {s s' : HashHistogram A V} (h : Alike P Q d s) (h' : Alike P Q d' s') (o : Op)
    (hop : ROps.op o RDefault.dflt (RDefault.dflt : V) = .ok RDefault.dflt)
    (hoQ : ∀ v v' z, Q v → Q v' → ROps.op o v v' = .ok z → Q z) (ko : HashHistogram.KeyOrder s s') :
    match d.opBorrow o d', s.opBorrow o s' ko with
    | .error _, .error _ => True
    | .ok (.error _), .ok (.error _) => True
    | .ok (.ok m), .ok (.ok m') => Alike P Q m m'
    | _, _ => False := by
  obtain ⟨hP, ⟨n, hd, hs⟩, hsame, hQ⟩ := h
  obtain ⟨hP', ⟨n', hd', hs'⟩, hsame', hQ'⟩ := h'
  rcases hax : PEq.peq d.axes d'.axes with _ | _
  · have hax' : PEq.peq s.axes s'.axes = false := by rw [← hsame.axes, ← hsame'.axes]; exact hax
    simp [VecHistogram.opBorrow, HashHistogram.opBorrow, hax, hax', pure, Except.pure]
  · have hax' : PEq.peq s.axes s'.axes = true := by rw [← hsame.axes, ← hsame'.axes]; exact hax
    have hn : n = n' := by
      have := hA _ _ hP hP' hax
      rw [hd.lawful.numBins, hd'.lawful.numBins] at this
      exact Except.ok.inj this
    subst hn
    rcases hb : s.opBorrow o s' ko with p | e | m'
    · obtain ⟨i, hi, hi2⟩ := HashHistogram.opBorrow_panic hax' ko hb
      rcases C33_binwise_dense o hd hd' hax with ⟨m, hm, -, -, hv⟩ | ⟨q, j, x, y, hm, -⟩
      · exfalso
        have hin : i < n := by
          rcases hi with hi | hi
          · exact hs.valid i (HashHistogram.mem_keys.2 hi)
          · exact hs'.valid i (HashHistogram.mem_keys.2 hi)
        obtain ⟨x, y, z, h1, h2, h3, -⟩ := hv i hin
        rw [HashHistogram.valueOr, HashHistogram.valueOr, hsame.value i x h1, hsame'.value i y h2, h3] at hi2
        cases hi2
      · rw [hm]; trivial
    · exfalso
      simp only [HashHistogram.opBorrow, hax', Bool.true_eq_false, if_false] at hb
      rw [Res.bind_eq_ok] at hb
      obtain ⟨z, -, hz⟩ := hb
      simp [pure, Except.pure] at hz
    · obtain ⟨c1, c2, c3⟩ := C33_binwise_sparse o hs hs' ko hb
      rcases C33_binwise_dense o hd hd' hax with ⟨m, hm, hmok, hmax, hv⟩ | ⟨q, j, x, y, hm, h1, h2, h3⟩
      · rw [hm]
        refine ⟨by rw [hmax]; exact hP, ⟨n, hmok, c1⟩, ⟨by rw [hmax, c2, hsame.axes], ?_⟩, ?_⟩
        swap
        · intro i v hi
          have hin : i < n := by
            by_contra hc
            rw [(hmok.get_none).2 (by omega)] at hi; cases hi
          obtain ⟨x, y, z, h1, h2, h3, h4⟩ := hv i hin
          rw [h4] at hi
          simp only [Option.some.injEq] at hi
          subst hi
          exact hoQ _ _ _ (hQ i x h1) (hQ' i y h2) h3
        intro i v hi
        have hin : i < n := by
          by_contra hc
          rw [(hmok.get_none).2 (by omega)] at hi; cases hi
        obtain ⟨x, y, z, h1, h2, h3, h4⟩ := hv i hin
        rw [h4] at hi
        simp only [Option.some.injEq] at hi
        subst hi
        have e1 := hsame.value i x h1
        have e2 := hsame'.value i y h2
        have := c3 i
        rcases hx : s.valueAtIndex i with _ | u <;> rcases hy : s'.valueAtIndex i with _ | w <;>
          simp only [hx, hy, HashHistogram.merged, Option.getD_some, Option.getD_none] at this e1 e2 <;> subst e1 <;> subst e2 <;>
          first
          | (rw [h3] at this
             simp only [Except.map, Except.ok.injEq] at this
             rw [← this]; rfl)
          | skip
        rw [hop] at h3
        simp only [Except.ok.injEq] at this h3
        rw [← this, ← h3]; rfl
      · exfalso
        have e1 := hsame.value j x h1
        have e2 := hsame'.value j y h2
        have := c3 j
        rcases hx : s.valueAtIndex j with _ | u <;> rcases hy : s'.valueAtIndex j with _ | w <;>
          simp only [hx, hy, HashHistogram.merged, Option.getD_some, Option.getD_none] at this e1 e2 <;> subst e1 <;> subst e2 <;>
          first
          | (rw [h3] at this
             simp only [Except.map] at this
             cases this)
          | skip
        rw [hop] at h3; cases h3

theorem Alike.opAssign (hA : ∀ x y : A, P x → P y → PEq.peq x y = true → Axis.numBins x = Axis.numBins y)
    {d d' : VecHistogram A V} {s s' : HashHistogram A V} (h : Alike P Q d s) (h' : Alike P Q d' s') (o : Op)
    (hop : ∀ v : V, Q v → ROps.op o v RDefault.dflt = .ok v)
    (hoQ : ∀ v v' z, Q v → Q v' → ROps.op o v v' = .ok z → Q z) (ro : s'.values.Order) :
    ((d.opAssign o d').2 = none ↔ (s.opAssign o s' ro).2 = none) ∧
    ((d.opAssign o d').2 = none → Alike P Q (d.opAssign o d').1 (s.opAssign o s' ro).1) := by
  obtain ⟨hP, ⟨n, hd, hs⟩, hsame, hQ⟩ := h
  obtain ⟨hP', ⟨n', hd', hs'⟩, hsame', hQ'⟩ := h'
  rcases hax : PEq.peq d.axes d'.axes with _ | _
  · have hax' : PEq.peq s.axes s'.axes = false := by rw [← hsame.axes, ← hsame'.axes]; exact hax
    simp [VecHistogram.opAssign, HashHistogram.opAssign, hax, hax']
  · have hax' : PEq.peq s.axes s'.axes = true := by rw [← hsame.axes, ← hsame'.axes]; exact hax
    have hn : n = n' := by
      have := hA _ _ hP hP' hax
      rw [hd.lawful.numBins, hd'.lawful.numBins] at this
      exact Except.ok.inj this
    subst hn
    obtain ⟨-, k1, k2⟩ := C35_dense o hd hd'
    rcases C33_binwise_dense o hd hd' hax with ⟨m, hm, hmok, hmax, hv⟩ | ⟨q, j, x, y, hm, h1, h2, h3⟩
    · rw [k1 m hm]
      have hsn : (s.opAssign o s' ro).2 = none := by
        rcases hp : (s.opAssign o s' ro).2 with _ | p
        · rfl
        · exfalso
          obtain ⟨i, hi, hi2⟩ := HashHistogram.opAssign_panic hs hs' hax' ro hp
          obtain ⟨x, y, z, h1, h2, h3, -⟩ := hv i (hs'.valid i (HashHistogram.mem_keys.2 hi))
          rw [HashHistogram.valueOr, HashHistogram.valueOr, hsame.value i x h1, hsame'.value i y h2, h3] at hi2
          cases hi2
      refine ⟨by simp [hsn], fun _ => ?_⟩
      obtain ⟨c1, c2, c3, c4⟩ := C33_assign_sparse o (m := (s.opAssign o s' ro).1) hs hs' ro (Prod.ext rfl hsn)
      refine ⟨by rw [hmax]; exact hP, ⟨n, hmok, c1⟩, ⟨by rw [hmax, c2, hsame.axes], ?_⟩, ?_⟩
      swap
      · intro i v hi
        have hin : i < n := by
          by_contra hc
          rw [(hmok.get_none).2 (by omega)] at hi; cases hi
        obtain ⟨x, y, z, h1, h2, h3, h4⟩ := hv i hin
        rw [h4] at hi
        simp only [Option.some.injEq] at hi
        subst hi
        exact hoQ _ _ _ (hQ i x h1) (hQ' i y h2) h3
      intro i v hi
      have hin : i < n := by
        by_contra hc
        rw [(hmok.get_none).2 (by omega)] at hi; cases hi
      obtain ⟨x, y, z, h1, h2, h3, h4⟩ := hv i hin
      rw [h4] at hi
      simp only [Option.some.injEq] at hi
      subst hi
      have e1 := hsame.value i x h1
      have e2 := hsame'.value i y h2
      rcases hy : s'.valueAtIndex i with _ | w
      · rw [hy] at e2
        simp only [Option.getD_none] at e2
        rw [← e2, hop _ (hQ i x h1)] at h3
        simp only [Except.ok.injEq] at h3
        rw [c3 i hy, e1, h3]
      · rw [hy] at e2
        simp only [Option.getD_some] at e2
        obtain ⟨z', hz, hz'⟩ := c4 i w hy
        rw [e1, e2, h3] at hz
        simp only [Except.ok.injEq] at hz
        rw [hz', ← hz]; rfl
    · have hdp := k2 q hm
      rw [hdp]
      refine ⟨⟨fun h => (by cases h), fun hsn => ?_⟩, fun h => (by cases h)⟩
      exfalso
      obtain ⟨c1, c2, c3, c4⟩ := C33_assign_sparse o (m := (s.opAssign o s' ro).1) hs hs' ro (Prod.ext rfl hsn)
      have e1 := hsame.value j x h1
      have e2 := hsame'.value j y h2
      rcases hy : s'.valueAtIndex j with _ | w
      · rw [hy] at e2
        simp only [Option.getD_none] at e2
        rw [← e2, hop _ (hQ j x h1)] at h3; cases h3
      · rw [hy] at e2
        simp only [Option.getD_some] at e2
        obtain ⟨z', hz, hz'⟩ := c4 j w hy
        rw [e1, e2, h3] at hz; cases hz

theorem Alike.set {env : Nat → VecHistogram A V} {env' : Nat → HashHistogram A V} (h : ∀ x, Alike P Q (env x) (env' x)) (x : Nat)
    {d : VecHistogram A V} {s : HashHistogram A V} (hx : Alike P Q d s) (y : Nat) :
    Alike P Q (HistProg.set env x d y) (HistProg.set env' x s y) := by
  unfold HistProg.set
  split
  · exact hx
  · exact h y

variable {R : Type}

/-- **C71.** A program that keeps empty bins empty does the same with sparse histograms, in whatever order their maps iterate, as with
dense ones: if it ends with a result when run with dense histograms, it ends with the same result when run with sparse ones, and all its
variables have the same content; if it panics with dense histograms, it panics with sparse ones. `P`: the axes the program uses; on
them, axes that compare equal have equally many bins (C46). `Q`: the values that occur. -/
theorem C71_program (hA : ∀ x y : A, P x → P y → PEq.peq x y = true → Axis.numBins x = Axis.numBins y)
    (prog : HistProg A V R) (hprog : prog.KeepsEmpty Q) (w : Nat → HistProg.MapOrders A V)
    (env : Nat → VecHistogram A V) (env' : Nat → HashHistogram A V) (h : ∀ x, Alike P Q (env x) (env' x)) :
    (∀ fin r, prog.runDense env = .ok (fin, r) → ∃ fin', prog.runSparse w env' = .ok (fin', r) ∧ ∀ x, Alike P Q (fin x) (fin' x)) ∧
    (∀ p, prog.runDense env = .error p → ∃ p', prog.runSparse w env' = .error p') := by
  induction prog generalizing w env env' with
  | done r =>
    refine ⟨?_, fun p hp => by cases hp⟩
    intro fin r' hr
    simp only [HistProg.runDense, Except.ok.injEq, Prod.mk.injEq] at hr
    obtain ⟨rfl, rfl⟩ := hr
    exact ⟨env', rfl, h⟩
  | call x c k ih =>
    obtain ⟨h1, h2⟩ := (h x).call c hprog.1
    simp only [HistProg.runDense, HistProg.runSparse]
    rw [h1]
    exact ih _ (hprog.2 _) _ _ _ (Alike.set h x h2)
  | value x c k ih =>
    simp only [HistProg.runDense, HistProg.runSparse]
    rw [(h x).value c]
    exact ih _ (hprog _) _ _ _ h
  | valueAt x i k ih =>
    simp only [HistProg.runDense, HistProg.runSparse]
    obtain ⟨n, hd, hs⟩ := (h x).ok
    rw [(h x).same.getD hd hs i]
    exact ih _ (hprog _) _ _ _ h
  | valueMut x c f k ih =>
    have := (h x).valueMut c f hprog.1 hprog.2.1
    simp only [HistProg.runDense, HistProg.runSparse]
    rcases hd : (env x).valueMut c f with p | _ | r <;> rcases hs : (env' x).valueMut c f with q | _ | r' <;>
      rw [hd, hs] at this <;> simp only at this
    · subst this
      exact ih _ (hprog.2.2 _) _ _ _ h
    · exact ih _ (hprog.2.2 _) _ _ _ h
    · simp only [this.1]
      have h3 : ∀ y, Alike P Q (HistProg.set env x r.1 y) (env' y) := by
        intro y
        unfold HistProg.set
        split
        · rename_i e; subst e; exact this.2
        · exact h y
      exact ih _ (hprog.2.2 _) _ _ _ h3
    · simp only [this.1]
      exact ih _ (hprog.2.2 _) _ _ _ (Alike.set h x this.2)
  | forEach x f k ih =>
    obtain ⟨h1, h2⟩ := (h x).iterMut f hprog.1 hprog.2.1 ((w 0).map _)
    simp only [HistProg.runDense, HistProg.runSparse]
    rcases hd : (env x).iterMut f with ⟨m, _ | p⟩ <;> rcases hs : (env' x).iterMut ((w 0).map _) f with ⟨m', _ | p'⟩ <;>
      rw [hd, hs] at h1 h2 <;> simp at h1 h2
    · exact ih hprog.2.2 _ _ _ (Alike.set h x h2)
    · exact ⟨fun _ _ h => (by cases h), fun _ _ => ⟨_, rfl⟩⟩
  | clone x y k ih =>
    simp only [HistProg.runDense, HistProg.runSparse]
    exact ih hprog _ _ _ (Alike.set h y (h x))
  | borrow o x y z k ih =>
    have := (h x).opBorrow hA (h y) o hprog.1 hprog.2.1 ((w 0).keys _ _)
    simp only [HistProg.runDense, HistProg.runSparse]
    rcases hd : (env x).opBorrow o (env y) with p | e | m <;> rcases hs : (env' x).opBorrow o (env' y) ((w 0).keys _ _) with q | e' | m' <;>
      rw [hd, hs] at this <;> simp only at this
    · exact ⟨fun _ _ h => (by cases h), fun _ _ => ⟨_, rfl⟩⟩
    · exact ih _ (hprog.2.2 _) _ _ _ h
    · exact ih _ (hprog.2.2 _) _ _ _ (Alike.set h z this)
  | owned o x y z k ih =>
    obtain ⟨h1, h2⟩ := (h x).opAssign hA (h y) o hprog.1 hprog.2.1 ((w 0).map _)
    simp only [HistProg.runDense, HistProg.runSparse, VecHistogram.opOwned, HashHistogram.opOwned]
    simp only [VecHistogram.opAssign, HashHistogram.opAssign] at h1 h2
    rw [← (h x).same.axes, ← (h y).same.axes] at h1 h2 ⊢
    rcases hax : PEq.peq (env x).axes (env y).axes with _ | _
    · exact ih _ (hprog.2.2 _) _ _ _ h
    · simp only [hax, Bool.true_eq_false, if_false] at h1 h2 ⊢
      rcases hd : zipUpd (ROps.opAssign o) (env x).values (env y).values with ⟨m, _ | p⟩ <;>
        rcases hs : HashHistogram.mergeLoop o ((w 0).map (env' y).values).list (env' x).values with ⟨m', _ | p'⟩ <;>
        rw [hd, hs] at h1 h2 <;> simp at h1 h2
      · exact ih _ (hprog.2.2 _) _ _ _ (Alike.set h z h2)
      · exact ⟨fun _ _ h => (by cases h), fun _ _ => ⟨_, rfl⟩⟩
  | assign o x y k ih =>
    obtain ⟨h1, h2⟩ := (h x).opAssign hA (h y) o hprog.1 hprog.2.1 ((w 0).map _)
    simp only [HistProg.runDense, HistProg.runSparse]
    rcases hd : (env x).opAssign o (env y) with ⟨m, _ | p⟩ <;> rcases hs : (env' x).opAssign o (env' y) ((w 0).map _) with ⟨m', _ | p'⟩ <;>
      rw [hd, hs] at h1 h2 <;> simp at h1 h2
    · exact ih hprog.2.2 _ _ _ (Alike.set h x h2)
    · exact ⟨fun _ _ h => (by cases h), fun _ _ => ⟨_, rfl⟩⟩

/-- **C71 (from the start).** The same for a program that starts with new histograms of the axes `ax`. -/
theorem C71_from_new (hA : ∀ x y : A, P x → P y → PEq.peq x y = true → Axis.numBins x = Axis.numBins y)
    (prog : HistProg A V R) (hQ : Q RDefault.dflt) (hprog : prog.KeepsEmpty Q) (w : Nat → HistProg.MapOrders A V)
    (ax : Nat → A) (hP : ∀ x, P (ax x)) (hax : ∀ x, ∃ n, LawfulAxis (ax x) n)
    (env : Nat → VecHistogram A V) (hnew : ∀ x, VecHistogram.new (ax x) = .ok (env x)) :
    (∀ fin r, prog.runDense env = .ok (fin, r) → ∃ fin', prog.runSparse w (fun x => HashHistogram.new (ax x)) = .ok (fin', r) ∧
      ∀ x, SameContent (fin x) (fin' x)) ∧
    (∀ p, prog.runDense env = .error p → ∃ p', prog.runSparse w (fun x => HashHistogram.new (ax x)) = .error p') := by
  have h : ∀ x, Alike P Q (env x) (HashHistogram.new (ax x)) := by
    intro x
    obtain ⟨n, hl⟩ := hax x
    obtain ⟨h₀, b1, b2, b3, b4⟩ := C26_new (V := V) hl
    have he : env x = h₀ := by
      have := hnew x
      rw [b1] at this
      exact (Except.ok.inj this).symm
    rw [he]
    refine ⟨by rw [b3]; exact hP x, ⟨n, b2, ⟨hl, HMap.nodup_empty, by simp [HashHistogram.new, HMap.empty, HMap.keys]⟩⟩, ⟨by rw [b3]; rfl, ?_⟩, ?_⟩
    all_goals intro i v hv
    all_goals
      have hin : i < n := by
        by_contra hc
        rw [(b2.get_none).2 (by omega)] at hv; cases hv
      rw [b4 i, if_pos hin] at hv
      simp only [Option.some.injEq] at hv
      rw [← hv]
      first
      | rfl
      | exact hQ
  obtain ⟨h1, h2⟩ := C71_program hA prog hprog w env _ h
  refine ⟨fun fin r hr => ?_, h2⟩
  obtain ⟨fin', a, b⟩ := h1 fin r hr
  exact ⟨fin', a, fun x => (b x).same⟩

end
end NdHist
