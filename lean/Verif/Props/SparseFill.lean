import Verif.Props.Wrap
import Verif.Props.IntMean
/-!
# C31, C73, C75: sparse histograms stop where dense ones do

A program of filling calls that is not protected against panics ends in the same way on a sparse and on a dense histogram, with the same contents. So what C73 and C75
say about dense histograms of integers holds for sparse ones.
-/
namespace NdHist
open RNum

section
variable [cfg : Cfg] {A V : Type} [Axis A]

/-- sparse `s` has the contents of dense `d` -/
structure SameFilled [RDefault V] (n : Nat) (d : VecHistogram A V) (s : HashHistogram A V) : Prop where
  axes : s.axes = d.axes
  okd : d.Ok n
  oks : s.Ok n
  val : ∀ i, i < n → d.valueAtIndex i = some ((s.valueAtIndex i).getD RDefault.dflt)

theorem SameFilled.call [RDefault V] {n : Nat} {d : VecHistogram A V} {s : HashHistogram A V} (h : SameFilled n d s) (c : Call V (Axis.Coordinate A)) :
    SameFilled n (d.call c).1 (s.call c).1 ∧ (s.call c).2 = (d.call c).2 := by
  obtain ⟨a1, a2, a3, a4, a5⟩ := C27_dense h.okd c
  obtain ⟨b1, b2, b3, b4, b5⟩ := C27_sparse h.oks c
  rw [h.axes] at b3 b4 b5
  have hax : (s.call c).1.axes = (d.call c).1.axes := by rw [a1, b1, h.axes]
  cases hi : Axis.index d.axes c.coord with
  | error p => rw [a5 p hi, b5 p hi]; exact ⟨h, rfl⟩
  | ok o =>
    cases o with
    | none => rw [a4 hi, b4 hi]; exact ⟨h, rfl⟩
    | some i =>
      obtain ⟨⟨v, v1, v2, v3⟩, v4⟩ := a3 i hi
      obtain ⟨w1, w2, w3⟩ := b3 i hi
      have hin : i < n := h.okd.lawful.index_lt _ _ hi
      have hv := h.val i hin
      rw [v1] at hv
      have hv := Option.some.inj hv
      refine ⟨⟨hax, a2, b2, fun j hj => ?_⟩, by rw [v3, w2, hv]⟩
      by_cases e : j = i
      · subst e; rw [v2, w1, hv]; rfl
      · rw [v4 j e, w3 j e, h.val j hj]

theorem SameFilled.callAll [RDefault V] {n : Nat} {d : VecHistogram A V} {s : HashHistogram A V} (h : SameFilled n d s) (calls : List (Call V (Axis.Coordinate A))) :
    SameFilled n (d.callAll calls).1 (s.callAll calls).1 ∧ (s.callAll calls).2 = (d.callAll calls).2 := by
  induction calls generalizing d s with
  | nil => exact ⟨h, rfl⟩
  | cons c cs ih =>
    obtain ⟨h1, h2⟩ := h.call c
    simp only [VecHistogram.callAll, HashHistogram.callAll]
    rcases hd : d.call c with ⟨d', _ | p⟩ <;> rcases hs : s.call c with ⟨s', _ | q⟩ <;> rw [hd, hs] at h1 h2
    · exact ih h1
    · cases h2
    · cases h2
    · exact ⟨h1, h2⟩

theorem SameFilled.new [RDefault V] {axes : A} {n : Nat} (hl : LawfulAxis axes n) {d : VecHistogram A V} (hnew : VecHistogram.new axes = .ok d) :
    SameFilled n d (HashHistogram.new axes) := by
  obtain ⟨h₀, b1, b2, b3, b4⟩ := C26_new (V := V) hl
  obtain rfl : d = h₀ := by rw [hnew] at b1; exact Except.ok.inj b1
  refine ⟨b3.symm, b2, (C32_keys (V := V) hl []).1, fun i hi => ?_⟩
  rw [b4, if_pos hi]; rfl

/-- **C31 (until a panic).** A program of filling calls on a fresh sparse histogram panics exactly if, and as, it does on a fresh dense one; and when it has ended or
stopped, iterating over the sparse one, in whatever order, gives items that the dense one has too, each once, and those the dense one has in addition hold the default value. -/
theorem C31_until_panic [RDefault V] {axes : A} {n : Nat} (hl : LawfulAxis axes n) {d : VecHistogram A V} (hnew : VecHistogram.new axes = .ok d)
    (calls : List (Call V (Axis.Coordinate A))) :
    let s : HashHistogram A V := HashHistogram.new axes
    (s.callAll calls).2 = (d.callAll calls).2 ∧
    ∀ o : (s.callAll calls).1.values.Order, ∃ sparse dense, (s.callAll calls).1.iter o = .ok sparse ∧ (d.callAll calls).1.iter = .ok dense ∧
      (sparse.map (·.index)).Nodup ∧ (∀ it ∈ sparse, it ∈ dense) ∧ ∀ it ∈ dense, it ∈ sparse ∨ it.value = RDefault.dflt := by
  intro s
  obtain ⟨h1, h2⟩ := (SameFilled.new hl hnew).callAll calls
  refine ⟨h2, fun o => ?_⟩
  obtain ⟨dense, d1, d2, d3, -⟩ := C38_iter h1.okd
  obtain ⟨sparse, s1, s2, s3, s4, -⟩ := C32_iter h1.oks o
  refine ⟨sparse, dense, s1, d1, s2, fun it hit => ?_, fun it hit => ?_⟩
  · obtain ⟨hv, hb⟩ := s3 it hit
    have hi : it.index < n := h1.oks.valid _ (by
      have := (HMap.mem_entries_iff h1.oks.nodup _ _).2 hv
      exact List.mem_map.2 ⟨_, this, rfl⟩)
    obtain ⟨b, v, e1, e2, e3⟩ := d3 _ hi
    rw [h1.axes, e2] at hb
    rw [h1.val _ hi, hv] at e3
    have : it = ⟨it.index, b, v⟩ := by
      cases it; simp only [Except.ok.injEq, Option.some.injEq, Option.getD_some] at hb e3
      simp [hb, e3]
    rw [this]; exact List.mem_of_getElem? e1
  · obtain ⟨k, hk, rfl⟩ := List.getElem_of_mem hit
    obtain ⟨b, v, e1, e2, e3⟩ := d3 k (d2 ▸ hk)
    rw [List.getElem?_eq_getElem hk, Option.some.injEq] at e1
    rw [h1.val _ (d2 ▸ hk)] at e3
    rw [e1]
    cases hs : (s.callAll calls).1.valueAtIndex k with
    | none => rw [hs] at e3; exact .inr (Option.some.inj e3).symm
    | some w =>
      rw [hs] at e3
      obtain rfl : w = v := Option.some.inj e3
      obtain ⟨it, i1, i2, i3⟩ := s4 k w hs
      obtain ⟨-, hb⟩ := s3 it i1
      rw [h1.axes, i2, e2] at hb
      refine .inl ?_
      have : it = ⟨k, b, w⟩ := by
        cases it; simp only [Except.ok.injEq, Option.some.injEq] at hb i2 i3
        simp [hb, i2, i3]
      rw [← this]; exact i1
end

section
variable [cfg : Cfg] {A : Type} [Axis A] {axes : A} {n : Nat} {covers : Axis.Interval A → Axis.Coordinate A → Prop} {dom : Axis.Coordinate A → Prop} {τ κ : IntTy} {F : FFmt}

/-- **C73 (checked integers, sparse).** In a build with overflow checks a program of `fill` and `fill_with` calls on a fresh sparse histogram of integers runs until the total
of the weights in a bin leaves the range of the type, and panics there; the bins then hold the exact totals of the calls before, an absent bin standing for 0. -/
theorem C73_checked_sparse (hc : Cfg.checked = true) (hf : FaithfulAxis axes n covers dom)
    (hist : List (Axis.Coordinate A × Option (MInt τ))) (hd : ∀ cw ∈ hist, dom cw.1) :
    ∃ s' p pre, (HashHistogram.new axes : HashHistogram A (MInt τ)).callAll (numCalls hist) = (s', p) ∧ pre <+: hist ∧
      (∀ o : s'.values.Order, ∃ items, s'.iter o = .ok items ∧ (items.map (·.index)).Nodup ∧
        (∀ it ∈ items, Axis.bin axes it.index = .ok (some it.bin) ∧ it.value.val = totalIn MInt.val covers it.bin pre) ∧
        ∀ i b, i < n → Axis.bin axes i = .ok (some b) → i ∉ items.map (·.index) → totalIn MInt.val covers b pre = 0) ∧
      (∀ q, q <+: pre → ∀ i b, i < n → Axis.bin axes i = .ok (some b) → InRange τ (totalIn MInt.val covers b q)) ∧
      (p = none ∧ pre = hist ∨
       p = some .overflow ∧ ∃ cw, (pre ++ [cw]) <+: hist ∧ ∃ i b, i < n ∧ Axis.bin axes i = .ok (some b) ∧ covers b cw.1 ∧
         ¬ InRange τ (totalIn MInt.val covers b (pre ++ [cw]))) := by
  obtain ⟨d, hnew, -⟩ := C26_new (V := MInt τ) hf.lawful
  obtain ⟨d', p, pre, dense, d1, d2, d3, d4, d5, d6, d7⟩ := C73_checked hc hf hnew hist hd
  obtain ⟨u1, u2⟩ := C31_until_panic hf.lawful hnew (numCalls hist)
  have find : ∀ i b, i < n → Axis.bin axes i = .ok (some b) → ∃ it ∈ dense, it.index = i ∧ it.bin = b := by
    intro i b hi hb
    have hi' : i < dense.length := d4 ▸ hi
    have := d5 i dense[i] (List.getElem?_eq_getElem hi')
    rw [hb] at this
    exact ⟨_, List.getElem_mem hi', this.1, by have := this.2.1; simp at this; exact this.symm⟩
  have facts : ∀ it ∈ dense, it.index < n ∧ Axis.bin axes it.index = .ok (some it.bin) ∧ it.value.val = totalIn MInt.val covers it.bin pre := by
    intro it hit
    obtain ⟨i, hi, rfl⟩ := List.getElem_of_mem hit
    obtain ⟨a, b, c⟩ := d5 i _ (List.getElem?_eq_getElem hi)
    exact ⟨by rw [a, ← d4]; exact hi, by rw [a]; exact b, c⟩
  refine ⟨_, p, pre, Prod.ext rfl (by rw [u1, d1]), d2, fun o => ?_, ?_, ?_⟩
  · obtain ⟨sparse, dense', s1, s2, s3, s4, s5⟩ := u2 o
    rw [d1] at s2
    obtain rfl : dense' = dense := by rw [d3] at s2; exact (Except.ok.inj s2).symm
    refine ⟨sparse, s1, s3, fun it hit => (facts it (s4 it hit)).2, ?_⟩
    intro i b hi hb hni
    obtain ⟨it, hit, rfl, rfl⟩ := find i b hi hb
    rcases s5 it hit with h | h
    · exact absurd (List.mem_map.2 ⟨it, h, rfl⟩) hni
    · rw [← (facts it hit).2.2, h]; rfl
  · intro q hq i b hi hb
    obtain ⟨it, hit, rfl, rfl⟩ := find i b hi hb
    exact d6 q hq it hit
  · rcases d7 with h | ⟨h1, cw, h2, it, hit, h3, h4⟩
    · exact .inl h
    · obtain ⟨f1, f2, -⟩ := facts it hit
      exact .inr ⟨h1, cw, h2, _, _, f1, f2, h3, h4⟩

/-- **C75 (panics, sparse).** Filling a fresh sparse histogram of `Mean`s of integers panics in exactly the same cases. -/
theorem C75_panics_sparse {O : Type} (hc : Cfg.checked = true) (hf : FaithfulAxis axes n covers dom)
    (hist : List (Axis.Coordinate A × MInt τ)) (hd : ∀ cx ∈ hist, dom cx.1) :
    ((HashHistogram.new axes : HashHistogram A (Mean (MInt τ) O (MInt κ))).callAll (meanFills hist)).2 = none ↔ ∀ i b, i < n → Axis.bin axes i = .ok (some b) →
      (∀ q, q <+: samplesIn covers b hist → InRange τ q.sum) ∧ InRange τ ((samplesIn covers b hist).map fun x => x ^ 2).sum ∧
        InRange κ (samplesIn covers b hist).length := by
  obtain ⟨d, hnew, -⟩ := C26_new (V := Mean (MInt τ) O (MInt κ)) hf.lawful
  rw [(C31_until_panic hf.lawful hnew _).1]
  exact C75_panics hc hf hnew hist hd

/-- **C75 (means, sparse).** The same means, in the bins that a coordinate is in. -/
theorem C75_means_sparse (hc : Cfg.checked = true) (hp3 : 3 ≤ F.p) (hem : F.emin + 2 * F.p + 2 ≤ 0) (hτ : -2 ^ F.p ≤ τ.min ∧ τ.max ≤ 2 ^ F.p) (hκ : κ.max ≤ 2 ^ F.p)
    (hf : FaithfulAxis axes n covers dom)
    (hist : List (Axis.Coordinate A × MInt τ)) (hd : ∀ cx ∈ hist, dom cx.1) {s'}
    (hr : (HashHistogram.new axes : HashHistogram A (Mean (MInt τ) (Flt F) (MInt κ))).callAll (meanFills hist) = (s', none)) (o : s'.values.Order) :
    ∃ items, s'.iter o = .ok items ∧ (items.map (·.index)).Nodup ∧
      (∀ it ∈ items, Axis.bin axes it.index = .ok (some it.bin) ∧
        let xs : List ℤ := samplesIn covers it.bin hist
        let N : ℚ := xs.length
        let mean : ℚ := (xs.sum : ℤ) / N
        let meanSquare : ℚ := ((xs.map fun x => x ^ 2).sum : ℤ) / N
        it.value.numSamples.val = xs.length ∧
        (xs = [] → it.value.get = .ok .nan) ∧
        (xs ≠ [] → ∃ q v vm, it.value.get = .ok q ∧ Closest mean q ∧
          it.value.varianceOfSamples = .ok v ∧ v.isFin ∧ 0 ≤ v.val ∧
          |v.val - (meanSquare - mean ^ 2)| ≤ ((1 + F.u) ^ 2 - 1) * meanSquare + ((1 + F.u) ^ 4 - 1) * mean ^ 2 ∧
          ((∃ c, ∀ x ∈ xs, x = c) → v.val = 0) ∧
          it.value.varianceOfMean = .ok vm ∧ Closest (v.val / N) vm)) ∧
      ∀ i b, i < n → Axis.bin axes i = .ok (some b) → (∃ cx ∈ hist, covers b cx.1) → ∃ it ∈ items, it.index = i ∧ it.bin = b := by
  classical
  obtain ⟨d, hnew, -⟩ := C26_new (V := Mean (MInt τ) (Flt F) (MInt κ)) hf.lawful
  obtain ⟨u1, u2⟩ := C31_until_panic hf.lawful hnew (meanFills hist)
  have e1 := congrArg Prod.fst hr
  have e2 := congrArg Prod.snd hr
  dsimp only at e1 e2
  subst e1
  rw [e2] at u1
  obtain ⟨sparse, dense, s1, s2, s3, s4, s5⟩ := u2 o
  obtain ⟨dense', m1, m2, m3⟩ := C75_means hc hp3 hem hτ hκ hf hnew hist hd (Prod.ext rfl u1.symm : d.callAll (meanFills hist) = (_, none))
  obtain rfl : dense' = dense := by rw [m1] at s2; exact Except.ok.inj s2
  refine ⟨sparse, s1, s3, ?_, ?_⟩
  · intro it hit
    obtain ⟨i, hi, rfl⟩ := List.getElem_of_mem (s4 it hit)
    obtain ⟨a, b⟩ := m3 i _ (List.getElem?_eq_getElem hi)
    rw [a]; exact b
  · rintro i b hi hb ⟨cx, hcx, hcov⟩
    have hi' : i < dense'.length := m2 ▸ hi
    obtain ⟨a, c, e, -⟩ := m3 i _ (List.getElem?_eq_getElem hi')
    have hbb : dense'[i].bin = b := by rw [hb] at c; simp at c; exact c.symm
    rcases s5 _ (List.getElem_mem hi') with h | h
    · exact ⟨_, h, a, hbb⟩
    · rw [h, hbb] at e
      have : 0 < (samplesIn covers b hist).length := by
        unfold samplesIn
        rw [List.length_map]
        exact List.length_pos_of_mem (List.mem_filter.2 ⟨hcx, by simpa using hcov⟩)
      change (0 : ℤ) = _ at e
      omega

/-- **C75 (weighted means, sparse).** The same weighted means, in the bins that a coordinate is in. -/
theorem C75_weighted_means_sparse (hc : Cfg.checked = true) (hτ : -2 ^ F.p ≤ τ.min ∧ τ.max ≤ 2 ^ F.p)
    (hf : FaithfulAxis axes n covers dom)
    (hist : List (Axis.Coordinate A × MInt τ × MInt τ)) (hd : ∀ cx ∈ hist, dom cx.1) {s'}
    (hr : (HashHistogram.new axes : HashHistogram A (WeightedMean (MInt τ) (MInt τ) (Flt F) (MInt κ))).callAll (weightedMeanFills hist) = (s', none)) (o : s'.values.Order) :
    open Classical in
    ∃ items, s'.iter o = .ok items ∧ (items.map (·.index)).Nodup ∧
      (∀ it ∈ items, Axis.bin axes it.index = .ok (some it.bin) ∧
        let mine := hist.filter fun cx => covers it.bin cx.1
        let weight : ℤ := (mine.map fun cx => cx.2.2.val).sum
        let weighted : ℤ := (mine.map fun cx => cx.2.2.val * cx.2.1.val).sum
        it.value.numSamples.val = mine.length ∧
        (weight ≠ 0 → ∃ q, it.value.get = .ok q ∧ Closest ((weighted : ℚ) / weight) q)) ∧
      ∀ i b, i < n → Axis.bin axes i = .ok (some b) → (∃ cx ∈ hist, covers b cx.1) → ∃ it ∈ items, it.index = i ∧ it.bin = b := by
  classical
  obtain ⟨d, hnew, -⟩ := C26_new (V := WeightedMean (MInt τ) (MInt τ) (Flt F) (MInt κ)) hf.lawful
  obtain ⟨u1, u2⟩ := C31_until_panic hf.lawful hnew (weightedMeanFills hist)
  have e1 := congrArg Prod.fst hr
  have e2 := congrArg Prod.snd hr
  dsimp only at e1 e2
  subst e1
  rw [e2] at u1
  obtain ⟨sparse, dense, s1, s2, s3, s4, s5⟩ := u2 o
  obtain ⟨dense', m1, m2, m3⟩ := C75_weighted_means hc hτ hf hnew hist hd (Prod.ext rfl u1.symm : d.callAll (weightedMeanFills hist) = (_, none))
  obtain rfl : dense' = dense := by rw [m1] at s2; exact Except.ok.inj s2
  refine ⟨sparse, s1, s3, ?_, ?_⟩
  · intro it hit
    obtain ⟨i, hi, rfl⟩ := List.getElem_of_mem (s4 it hit)
    obtain ⟨a, b⟩ := m3 i _ (List.getElem?_eq_getElem hi)
    rw [a]; exact b
  · rintro i b hi hb ⟨cx, hcx, hcov⟩
    have hi' : i < dense'.length := m2 ▸ hi
    obtain ⟨a, c, e, -⟩ := m3 i _ (List.getElem?_eq_getElem hi')
    have hbb : dense'[i].bin = b := by rw [hb] at c; simp at c; exact c.symm
    rcases s5 _ (List.getElem_mem hi') with h | h
    · exact ⟨_, h, a, hbb⟩
    · rw [h, hbb] at e
      have : 0 < (hist.filter fun cx => decide (covers b cx.1)).length :=
        List.length_pos_of_mem (List.mem_filter.2 ⟨hcx, by simpa using hcov⟩)
      change (0 : ℤ) = _ at e
      omega
end
end NdHist
