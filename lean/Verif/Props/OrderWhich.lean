import Verif.Props.Order
/-!
# C60: what decides a comparison

`Props/Order.lean` shows that the comparisons are consistent; here: which of two things is the lesser one.
-/
namespace NdHist

/-- `a` before `b` when they are compared by `f` first and then by what `rest` says -/
theorem lt_thenCmp {T S : Type} [POrd S] [PEq S] (h : CmpLaws (PEq.peq (A := S)) POrd.pcmp) (f : T → S) (rest : T → T → Option Ordering) (a b : T) :
    thenCmp (POrd.pcmp (f a) (f b)) (rest a b) = some .lt ↔ POrd.lt (f a) (f b) = true ∨ (PEq.peq (f a) (f b) = true ∧ rest a b = some .lt) := by
  rw [h.eq_iff]
  show _ ↔ ((POrd.pcmp (f a) (f b)) == some .lt) = true ∨ _
  cases POrd.pcmp (f a) (f b) with
  | none => simp [thenCmp]
  | some o => cases o <;> simp [thenCmp]

/-- comparison of vectors: the first elements that are not equal decide; a proper prefix is less -/
theorem lt_vecCmp {S : Type} [POrd S] [PEq S] (h : CmpLaws (PEq.peq (A := S)) POrd.pcmp) (x y : List S) (hlen : x.length = y.length) :
    vecCmp x y = some .lt ↔ ∃ (k : ℕ) (v w : S), x[k]? = some v ∧ y[k]? = some w ∧ POrd.lt v w = true ∧
      ∀ j < k, ∃ v' w', x[j]? = some v' ∧ y[j]? = some w' ∧ PEq.peq v' w' = true := by
  induction x generalizing y with
  | nil => cases y <;> simp_all [vecCmp]
  | cons v x ih =>
    cases y with
    | nil => simp at hlen
    | cons w y =>
      have hl : x.length = y.length := by simpa using hlen
      have e := h.eq_iff v w
      have lt_def : POrd.lt v w = true ↔ POrd.pcmp v w = some .lt := by
        show ((POrd.pcmp v w) == some .lt) = true ↔ _
        simp
      have step : (∃ (k : ℕ) (v' w' : S), (v :: x)[k]? = some v' ∧ (w :: y)[k]? = some w' ∧ POrd.lt v' w' = true ∧
            ∀ j < k, ∃ v'' w'', (v :: x)[j]? = some v'' ∧ (w :: y)[j]? = some w'' ∧ PEq.peq v'' w'' = true) ↔
          POrd.lt v w = true ∨ (PEq.peq v w = true ∧ ∃ (k : ℕ) (v' w' : S), x[k]? = some v' ∧ y[k]? = some w' ∧ POrd.lt v' w' = true ∧
            ∀ j < k, ∃ v'' w'', x[j]? = some v'' ∧ y[j]? = some w'' ∧ PEq.peq v'' w'' = true) := by
        constructor
        · rintro ⟨k, v', w', h1, h2, h3, h4⟩
          cases k with
          | zero => left; simp at h1 h2; subst h1; subst h2; exact h3
          | succ k =>
            right
            obtain ⟨a, b, ha, hb, hab⟩ := h4 0 (by omega)
            simp at ha hb; subst ha; subst hb
            refine ⟨hab, k, v', w', by simpa using h1, by simpa using h2, h3, fun j hj => ?_⟩
            simpa using h4 (j + 1) (by omega)
        · rintro (hlt | ⟨he, k, v', w', h1, h2, h3, h4⟩)
          · exact ⟨0, v, w, by simp, by simp, hlt, by simp⟩
          · refine ⟨k + 1, v', w', by simpa using h1, by simpa using h2, h3, fun j hj => ?_⟩
            cases j with
            | zero => exact ⟨v, w, by simp, by simp, he⟩
            | succ j => simpa using h4 j (by omega)
      rw [step, e, lt_def, ← ih y hl]
      show thenCmp _ _ = _ ↔ _
      cases POrd.pcmp v w with
      | none => simp [thenCmp]
      | some o => cases o <;> simp [thenCmp]

section
variable {T : Type} [PEq T] [POrd T]

omit [PEq T] in
/-- **C60 (bins of a category axis).** The overflow bin is below every category; categories compare as their values do. -/
theorem C60_category_order (v w : T) :
    POrd.lt (SingleValueBinInterval.Overflow : SingleValueBinInterval T) (.Bin v) = true ∧
    POrd.lt (SingleValueBinInterval.Bin v) (SingleValueBinInterval.Overflow : SingleValueBinInterval T) = false ∧
    POrd.lt (SingleValueBinInterval.Bin v) (.Bin w) = POrd.lt v w := ⟨rfl, rfl, rfl⟩

/-- **C60 (which bin is less).** Bins between edges compare by the lower edge, then by the upper edge, underflow and overflow bins by their edge. Underflow is below
overflow and both are below every bin between edges. -/
theorem C60_interval_order (h : CmpLaws (PEq.peq (A := T)) POrd.pcmp) (s e s' e' : T) :
    (POrd.lt (BinInterval.Bin s e) (.Bin s' e') = true ↔ POrd.lt s s' = true ∨ (PEq.peq s s' = true ∧ POrd.lt e e' = true)) ∧
    POrd.lt (BinInterval.Underflow e) (.Underflow e') = POrd.lt e e' ∧ POrd.lt (BinInterval.Overflow s) (.Overflow s') = POrd.lt s s' ∧
    POrd.lt (BinInterval.Underflow e) (.Overflow s) = true ∧ POrd.lt (BinInterval.Underflow e) (.Bin s' e') = true ∧
    POrd.lt (BinInterval.Overflow s) (.Bin s' e') = true := by
  refine ⟨?_, rfl, rfl, rfl, rfl, rfl⟩
  have := lt_thenCmp h (fun p : T × T => p.1) (fun p q => POrd.pcmp p.2 q.2) (s, e) (s', e')
  show ((thenCmp _ _ : Option Ordering) == _) = true ↔ _
  rw [beq_iff_eq, this]
  simp [POrd.lt]

/-- **C60 (which sum is less).** `Sum` compares as its value does; `WeightedSum` by the sum, and by the variance between equal sums. -/
theorem C60_sum_order (h : CmpLaws (PEq.peq (A := T)) POrd.pcmp) (a b : Sum T) (c d : WeightedSum T) :
    POrd.lt a b = POrd.lt a.get b.get ∧
    (POrd.lt c d = true ↔ POrd.lt c.get d.get = true ∨ (PEq.peq c.get d.get = true ∧ POrd.lt c.variance d.variance = true)) := by
  refine ⟨rfl, ?_⟩
  have := lt_thenCmp h WeightedSum.sumw (fun p q : WeightedSum T => POrd.pcmp p.sumw2 q.sumw2) c d
  show ((thenCmp _ _ : Option Ordering) == _) = true ↔ _
  rw [beq_iff_eq, this]
  simp [POrd.lt, WeightedSum.get, WeightedSum.variance]

/-- **C60 (which mean is less).** `Mean` compares by the sum of the samples, not by the mean; then by the sum of the squares, then by the number of samples. -/
theorem C60_mean_order {O C : Type} [PEq C] [POrd C] (h : CmpLaws (PEq.peq (A := T)) POrd.pcmp) (a b : Mean T O C) :
    POrd.lt a b = true ↔ POrd.lt a.sumw b.sumw = true ∨ (PEq.peq a.sumw b.sumw = true ∧ (POrd.lt a.sumw2 b.sumw2 = true ∨
      (PEq.peq a.sumw2 b.sumw2 = true ∧ POrd.lt a.numSamples b.numSamples = true))) := by
  have h1 := lt_thenCmp h Mean.sumw (fun p q : Mean T O C => thenCmp (POrd.pcmp p.sumw2 q.sumw2) (POrd.pcmp p.count q.count)) a b
  have h2 := lt_thenCmp h Mean.sumw2 (fun p q : Mean T O C => POrd.pcmp p.count q.count) a b
  rw [h2] at h1
  show ((thenCmp _ _ : Option Ordering) == _) = true ↔ _
  rw [beq_iff_eq, h1]
  simp [POrd.lt, Mean.numSamples]

/-- **C60 (which weighted mean is less).** By the sum of the weighted samples, then of the weighted squares, then of the weights, of their squares, and by the number of
samples. -/
theorem C60_weighted_mean_order {W O C : Type} [PEq C] [POrd C] [PEq W] [POrd W] (h : CmpLaws (PEq.peq (A := T)) POrd.pcmp)
    (hw : CmpLaws (PEq.peq (A := W)) POrd.pcmp) (a b : WeightedMean T W O C) :
    POrd.lt a b = true ↔ POrd.lt a.sumwt b.sumwt = true ∨ (PEq.peq a.sumwt b.sumwt = true ∧ (POrd.lt a.sumwt2 b.sumwt2 = true ∨
      (PEq.peq a.sumwt2 b.sumwt2 = true ∧ (POrd.lt a.sumw b.sumw = true ∨ (PEq.peq a.sumw b.sumw = true ∧ (POrd.lt a.sumw2 b.sumw2 = true ∨
        (PEq.peq a.sumw2 b.sumw2 = true ∧ POrd.lt a.numSamples b.numSamples = true))))))) := by
  have h1 := lt_thenCmp h WeightedMean.sumwt (fun p q : WeightedMean T W O C => thenCmp (POrd.pcmp p.sumwt2 q.sumwt2) (thenCmp (POrd.pcmp p.sumw q.sumw)
    (thenCmp (POrd.pcmp p.sumw2 q.sumw2) (POrd.pcmp p.count q.count)))) a b
  have h2 := lt_thenCmp h WeightedMean.sumwt2 (fun p q : WeightedMean T W O C => thenCmp (POrd.pcmp p.sumw q.sumw)
    (thenCmp (POrd.pcmp p.sumw2 q.sumw2) (POrd.pcmp p.count q.count))) a b
  have h3 := lt_thenCmp hw WeightedMean.sumw (fun p q : WeightedMean T W O C =>
    thenCmp (POrd.pcmp p.sumw2 q.sumw2) (POrd.pcmp p.count q.count)) a b
  have h4 := lt_thenCmp hw WeightedMean.sumw2 (fun p q : WeightedMean T W O C => POrd.pcmp p.count q.count) a b
  rw [h4] at h3
  rw [h3] at h2
  rw [h2] at h1
  show ((thenCmp _ _ : Option Ordering) == _) = true ↔ _
  rw [beq_iff_eq, h1]
  simp [POrd.lt, WeightedMean.numSamples]

/-- **C60 (which histogram is less).** Between histograms with equal axes (and so equally many bins) the first bin whose values are not equal decides. -/
theorem C60_histogram_order {A V : Type} [PEq A] [POrd A] [PEq V] [POrd V] (ha : CmpLaws (PEq.peq (A := A)) POrd.pcmp)
    (hv : CmpLaws (PEq.peq (A := V)) POrd.pcmp) (a b : VecHistogram A V) (hlen : a.values.length = b.values.length) :
    POrd.lt a b = true ↔ POrd.lt a.axes b.axes = true ∨ (PEq.peq a.axes b.axes = true ∧
      ∃ k v w, a.valueAtIndex k = some v ∧ b.valueAtIndex k = some w ∧ POrd.lt v w = true ∧
        ∀ j < k, ∃ v' w', a.valueAtIndex j = some v' ∧ b.valueAtIndex j = some w' ∧ PEq.peq v' w' = true) := by
  have h1 := lt_thenCmp ha VecHistogram.axes (fun p q : VecHistogram A V => vecCmp p.values q.values) a b
  rw [lt_vecCmp hv _ _ hlen] at h1
  show ((thenCmp _ _ : Option Ordering) == _) = true ↔ _
  rw [beq_iff_eq, h1]
  rfl
end

namespace Examples
section
attribute [local instance] dbg64 stdOld numPEq

/-- C60: the overflow bin of a category axis is below the category "a" -/
example : POrd.lt (SingleValueBinInterval.Overflow : SingleValueBinInterval (MInt .i32)) (.Bin (.lit (-7))) = true := (C60_category_order (.lit (-7)) (.lit 0)).1
/-- C60: `[0, 2) < [1, 1)` and `[0, 1) < [0, 2)` -/
example : POrd.lt (BinInterval.Bin (MInt.lit (τ := .i32) 0) (.lit 2)) (.Bin (.lit 1) (.lit 1)) = true :=
  (C60_interval_order cmpLaws_num _ _ _ _).1.2 (.inl (by decide))
example : POrd.lt (BinInterval.Bin (MInt.lit (τ := .i32) 0) (.lit 1)) (.Bin (.lit 0) (.lit 2)) = true :=
  (C60_interval_order cmpLaws_num _ _ _ _).1.2 (.inr ⟨by decide, by decide⟩)
/-- C60: of two equal weighted sums that with the smaller variance is less -/
example : POrd.lt (WeightedSum.mk (MInt.lit (τ := .i32) 4) (.lit 4)) ⟨.lit 4, .lit 16⟩ = true :=
  (C60_sum_order cmpLaws_num ⟨.lit 0⟩ ⟨.lit 0⟩ _ _).2.2 (.inr ⟨by decide, by decide⟩)
/-- C60: the mean of `10` is less than the mean of twelve samples `1` -/
example : POrd.lt (Mean.mk (O := Unit) (MInt.lit (τ := .i32) 10) (.lit 100) (MInt.lit (τ := .u32) 1)) ⟨.lit 12, .lit 12, .lit 12⟩ = true :=
  (C60_mean_order cmpLaws_num _ _).2 (.inl (by decide))
example : POrd.lt (WeightedMean.mk (O := Unit) (MInt.lit (τ := .i32) 10) (.lit 100) (MInt.lit (τ := .i32) 1) (.lit 1) (MInt.lit (τ := .u32) 1))
    ⟨.lit 10, .lit 100, .lit 2, .lit 1, .lit 1⟩ = true :=
  (C60_weighted_mean_order cmpLaws_num cmpLaws_num _ _).2 (.inr ⟨by decide, .inr ⟨by decide, .inl (by decide)⟩⟩)
/-- C60: histograms with the contents `[1, 2, 9, 0]` and `[1, 3, 0, 0]` -/
def exOrdA : VecHistogram (AxesTuple1 (Uniform (MInt .i32))) (MInt .i32) := ⟨⟨⟨2, .lit 0, .lit 4, .lit 2⟩, [4]⟩, [.lit 1, .lit 2, .lit 9, .lit 0]⟩
def exOrdB : VecHistogram (AxesTuple1 (Uniform (MInt .i32))) (MInt .i32) := ⟨⟨⟨2, .lit 0, .lit 4, .lit 2⟩, [4]⟩, [.lit 1, .lit 3, .lit 0, .lit 0]⟩
example : POrd.lt exOrdA exOrdB = true := by
  refine (C60_histogram_order (C60_tuple1 C60_uniform) cmpLaws_num exOrdA exOrdB rfl).2 (.inr ⟨by decide, 1, .lit 2, .lit 3, rfl, rfl, by decide, fun j hj => ?_⟩)
  have : j = 0 := by omega
  subst this
  exact ⟨.lit 1, .lit 1, rfl, rfl, by decide⟩
end
end Examples
end NdHist
