import Verif.Model.Category
import Verif.Lemmas.HMap
import Verif.Lemmas.Basic
import Verif.Spec
import Mathlib.Data.List.Induction
/-!
# Properties of category axes (C16-C18)

`T` is any type with decidable equality (`Eq + Hash` in Rust). The hypothesis `values.length + 1 < usizeSize`
holds for every list that fits in memory together with the axis (each category takes at least 8 bytes in
`map_index_to_t`).
-/
set_option linter.unusedSectionVars false
namespace NdHist
section
variable {T : Type} [DecidableEq T] [Cfg]

namespace Category

theorem new_append (vs : List T) (v : T) : new (vs ++ [v]) = (new vs).insert v := by
  simp [new, List.foldl_append]

/-- contents of the two maps after construction -/
theorem new_spec (vs : List T) :
    (new vs).len = vs.length ∧ (∀ i, (new vs).getValue i = vs[i]?) ∧
    (∀ v i, (new vs).getIndex v = some i ↔ vs[i]? = some v ∧ ∀ j, i < j → vs[j]? ≠ some v) := by
  induction vs using List.reverseRecOn with
  | nil => simp [new, len, getValue, getIndex]
  | append_singleton vs v ih =>
    obtain ⟨h1, h2, h3⟩ := ih
    rw [new_append]
    have hlen : (new vs).mapIndexToT.len = vs.length := h1
    have hk : vs.length ∉ (new vs).mapIndexToT.keys := by
      rw [← HMap.get_eq_none]
      have := h2 vs.length
      simpa [getValue] using this
    refine ⟨?_, ?_, ?_⟩
    · simp only [len, insert, HMap.len_insert, hlen, hk, if_false, List.length_append, List.length_singleton]
    · intro i
      simp only [getValue, insert, HMap.get_insert, hlen]
      by_cases h : vs.length = i
      · subst h; simp
      · have := h2 i
        simp only [getValue] at this
        simp only [h, if_false, this]
        rcases Nat.lt_or_ge i vs.length with hi | hi
        · rw [List.getElem?_append_left hi]
        · rw [List.getElem?_eq_none hi, List.getElem?_eq_none (by simp; omega)]
    · intro w i
      simp only [getIndex, insert, HMap.get_insert, hlen]
      by_cases h : v = w
      · subst h
        simp only [if_true, Option.some.injEq]
        constructor
        · rintro rfl
          refine ⟨by simp, ?_⟩
          intro j hj
          rw [List.getElem?_eq_none (by simp; omega)]
          simp
        · rintro ⟨h4, h5⟩
          by_contra hne
          have hi : i < (vs ++ [v]).length := by
            by_contra hc
            rw [List.getElem?_eq_none (by omega)] at h4; simp at h4
          simp only [List.length_append, List.length_singleton] at hi
          exact h5 vs.length (by omega) (by simp)
      · have := h3 w i
        simp only [getIndex] at this
        simp only [h, if_false, this]
        have hlast : ∀ j : Nat, (vs ++ [v])[j]? = some w ↔ vs[j]? = some w := by
          intro j
          rcases Nat.lt_trichotomy j vs.length with hj | rfl | hj
          · rw [List.getElem?_append_left hj]
          · simp [h]
          · rw [List.getElem?_eq_none (by simp; omega), List.getElem?_eq_none (by omega)]
        simp only [ne_eq, hlast]

theorem getIndex_none (vs : List T) (v : T) : (new vs).getIndex v = none ↔ v ∉ vs := by
  constructor
  · intro h hv
    -- take the last occurrence
    have hex : ∃ i : Nat, vs[i]? = some v := by
      obtain ⟨i, hi, h⟩ := List.getElem_of_mem hv
      exact ⟨i, by simp [hi, h]⟩
    have hlast : ∃ i : Nat, vs[i]? = some v ∧ ∀ j, i < j → vs[j]? ≠ some v := by
      by_contra hno
      push Not at hno
      have : ∀ n : Nat, ∃ i : Nat, n ≤ i ∧ vs[i]? = some v := by
        intro n
        induction n with
        | zero => obtain ⟨i, hi⟩ := hex; exact ⟨i, by omega, hi⟩
        | succ n ih =>
          obtain ⟨i, hi, hv⟩ := ih
          obtain ⟨j, hj, hjv⟩ := hno i hv
          exact ⟨j, by omega, hjv⟩
      obtain ⟨i, hi, hiv⟩ := this vs.length
      rw [List.getElem?_eq_none hi] at hiv
      simp at hiv
    obtain ⟨i, hi⟩ := hlast
    rw [((new_spec vs).2.2 v i).mpr hi] at h
    simp at h
  · intro hv
    cases h : (new vs).getIndex v with
    | none => rfl
    | some i =>
      have := ((new_spec vs).2.2 v i).mp h
      exact (hv (List.mem_of_getElem? this.1)).elim

end Category

/-- **C16 (bins).** `num_bins` is the number of categories plus one, bin `i` is the `i`-th category, the last bin is
the overflow, and there is none beyond. (Repetitions allowed.) -/
theorem C16_category_bins (values : List T) (hmem : values.length + 1 < usizeSize) :
    (Category.new values).numBins = .ok (values.length + 1) ∧
    (∀ i v, values[i]? = some v → (Category.new values).bin i = .ok (some (.Bin v))) ∧
    (Category.new values).bin values.length = .ok (some .Overflow) ∧
    (∀ i, values.length < i → (Category.new values).bin i = .ok none) := by
  obtain ⟨h1, h2, h3⟩ := Category.new_spec values
  refine ⟨?_, ?_, ?_, ?_⟩
  · rw [Category.numBins, h1, uadd_ok hmem]
  · intro i v hv
    simp [Category.bin, h2, hv, SingleValueBinInterval.new]
  · simp [Category.bin, h1, h2, SingleValueBinInterval.overflow]
  · intro i hi
    have hne : i ≠ values.length := by omega
    simp [Category.bin, h2, List.getElem?_eq_none (Nat.le_of_lt hi), h1, hne]

/-- **C16 (index).** For distinct categories the `i`-th category has index `i`, and everything else goes to the
overflow bin; `index` never is `None`. -/
theorem C16_category_index (values : List T) (hd : values.Nodup) (v : T) :
    (∀ i, values[i]? = some v → (Category.new values).index v = .ok (some i)) ∧
    (v ∉ values → (Category.new values).index v = .ok (some values.length)) := by
  obtain ⟨h1, h2, h3⟩ := Category.new_spec values
  constructor
  · intro i hi
    have : (Category.new values).getIndex v = some i := by
      rw [h3]
      refine ⟨hi, ?_⟩
      intro j hj hjv
      have := (List.getElem?_inj (l := values) (i := i) (j := j)
        (by by_contra h; rw [List.getElem?_eq_none (by omega)] at hi; simp at hi) hd).mp (by rw [hi, hjv])
      omega
    simp [Category.index, this]
  · intro hv
    rw [← Category.getIndex_none] at hv
    simp [Category.index, hv, h1]

/-- **C16, in terms of the reported bins.** A value is counted in bin `i` exactly when `bin(i)` contains it (the
overflow bin containing whatever is not a category). -/
theorem C16_index_iff_bin_covers (values : List T) (hd : values.Nodup)
    (hmem : values.length + 1 < usizeSize) (v : T) (i : Nat) :
    (Category.new values).index v = .ok (some i) ↔
      ∃ b, (Category.new values).bin i = .ok (some b) ∧ b.Covers values v := by
  obtain ⟨_, hb, hover, hout⟩ := C16_category_bins values hmem
  obtain ⟨hi, hn⟩ := C16_category_index values hd v
  rcases Nat.lt_trichotomy i values.length with h | rfl | h
  · have hbin := hb i values[i] (by simp [h])
    rw [hbin]
    simp only [Except.ok.injEq, Option.some.injEq, exists_eq_left', SingleValueBinInterval.Covers]
    by_cases hv : v ∈ values
    · obtain ⟨j, hj, hjv⟩ := List.getElem_of_mem hv
      rw [hi j (by simp [hj, hjv])]
      simp only [Except.ok.injEq, Option.some.injEq]
      constructor
      · rintro rfl; exact hjv.symm
      · intro hvi
        exact (List.Nodup.getElem_inj_iff hd).mp (by rw [hjv, hvi])
    · rw [hn hv]
      simp only [Except.ok.injEq, Option.some.injEq]
      constructor
      · intro h'; omega
      · intro hvi; exact (hv (hvi ▸ List.getElem_mem h)).elim
  · rw [hover]
    simp only [Except.ok.injEq, Option.some.injEq, exists_eq_left', SingleValueBinInterval.Covers]
    by_cases hv : v ∈ values
    · obtain ⟨j, hj, hjv⟩ := List.getElem_of_mem hv
      rw [hi j (by simp [hj, hjv])]
      simp [hv]; omega
    · simp [hn hv, hv]
  · rw [hout i h]
    simp only [Except.ok.injEq, reduceCtorEq, false_and, exists_false, iff_false]
    by_cases hv : v ∈ values
    · obtain ⟨j, hj, hjv⟩ := List.getElem_of_mem hv
      rw [hi j (by simp [hj, hjv])]
      simp; omega
    · rw [hn hv]; simp; omega

/-- **C17.** With repeated categories, each value still has exactly one bin: the one of its last occurrence in the list,
which reports that value; other values go to overflow; the index is always in range. The bins of the earlier
occurrences stay empty. -/
theorem C17_category_repeated (values : List T) (hmem : values.length + 1 < usizeSize) (v : T) :
    ∃ i, (Category.new values).index v = .ok (some i) ∧ i < values.length + 1 ∧
      (v ∈ values → values[i]? = some v ∧ (∀ j, i < j → values[j]? ≠ some v) ∧
        (Category.new values).bin i = .ok (some (.Bin v))) ∧
      (v ∉ values → i = values.length ∧ (Category.new values).bin i = .ok (some .Overflow)) := by
  obtain ⟨h1, h2, h3⟩ := Category.new_spec values
  obtain ⟨_, hb, hover, _⟩ := C16_category_bins values hmem
  cases h : (Category.new values).getIndex v with
  | some i =>
    obtain ⟨h4, h5⟩ := (h3 v i).mp h
    have hv : v ∈ values := List.mem_of_getElem? h4
    have hi : i < values.length := by
      by_contra hc; rw [List.getElem?_eq_none (by omega)] at h4; simp at h4
    exact ⟨i, by simp [Category.index, h], by omega, fun _ => ⟨h4, h5, hb i v h4⟩, fun hn => (hn hv).elim⟩
  | none =>
    have hv := (Category.getIndex_none values v).mp h
    exact ⟨values.length, by simp [Category.index, h, h1], by omega, fun hn => (hv hn).elim, fun _ => ⟨rfl, hover⟩⟩

/-- **C18 (index).** `CategoryNoFlow` has a bin exactly for the listed categories, the same as `Category`. -/
theorem C18_category_noflow_index (values : List T) (hmem : values.length + 1 < usizeSize) (v : T) :
    (v ∈ values → (CategoryNoFlow.new values).index v = (Category.new values).index v ∧
      ∃ i, (CategoryNoFlow.new values).index v = .ok (some i) ∧ i < values.length) ∧
    (v ∉ values → (CategoryNoFlow.new values).index v = .ok none) := by
  obtain ⟨i, hi, hlt, hin, hout⟩ := C17_category_repeated values hmem v
  obtain ⟨hn, _⟩ := C16_category_bins values hmem
  have key : (CategoryNoFlow.new values).index v = .ok (if i = values.length then none else some i) := by
    unfold CategoryNoFlow.index CategoryNoFlow.new
    simp only [hi, hn, Res.ok_bind]
    rw [usub_ok (by omega)]
    simp only [Res.ok_bind, Nat.add_sub_cancel]
    by_cases h : i = values.length <;> simp [h]
  constructor
  · intro hv
    obtain ⟨h1, _, _⟩ := hin hv
    have hne : i < values.length := by
      by_contra hc; rw [List.getElem?_eq_none (by omega)] at h1; simp at h1
    rw [key, hi, if_neg (by omega)]
    exact ⟨rfl, i, rfl, hne⟩
  · intro hv
    rw [key, if_pos (hout hv).1]

/-- **C18 (bins).** `num_bins` is the number of listed categories, and `bin(i)` is the `i`-th category, `None` beyond. -/
theorem C18_category_noflow_bins (values : List T) (hmem : values.length + 1 < usizeSize) :
    (CategoryNoFlow.new values).numBins = .ok values.length ∧
    (∀ i v, values[i]? = some v → (CategoryNoFlow.new values).bin i = .ok (some (.Bin v))) ∧
    (∀ i, values.length ≤ i → (CategoryNoFlow.new values).bin i = .ok none) := by
  obtain ⟨hn, hb, hover, hout⟩ := C16_category_bins values hmem
  refine ⟨?_, ?_, ?_⟩
  · unfold CategoryNoFlow.numBins CategoryNoFlow.new
    simp only [hn, Res.ok_bind]
    rw [usub_ok (by omega), Nat.add_sub_cancel]
  · intro i v hv
    simp [CategoryNoFlow.bin, CategoryNoFlow.new, hb i v hv]
  · intro i hi
    rcases Nat.lt_or_ge values.length i with h | h
    · simp [CategoryNoFlow.bin, CategoryNoFlow.new, hout i h]
    · have : i = values.length := by omega
      subst this
      simp [CategoryNoFlow.bin, CategoryNoFlow.new, hover]
end

section
attribute [local instance] dbg64
/-- non-vacuity of C16-C18: distinct and repeated categories -/
example : ["red", "blue"].Nodup ∧ (Category.new ["red", "blue"]).index "blue" = .ok (some 1) ∧
    (Category.new ["red", "blue"]).index "green" = .ok (some 2) ∧
    (Category.new ["a", "b", "a"]).index "a" = .ok (some 2) ∧
    (CategoryNoFlow.new ["a", "b", "a"]).index "b" = .ok (some 1) ∧
    (CategoryNoFlow.new ["a", "b", "a"]).index "c" = .ok none := by decide
example : (2 : Nat) + 1 < usizeSize := by decide
end
end NdHist
