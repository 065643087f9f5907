import Verif.Props.UniformFloatBins
import Verif.Props.Order
import Verif.Props.Labels
/-!
# C60, C70 on float uniform axes
-/
namespace NdHist
open POrd RNum
variable [cfg : Cfg] {F : FFmt}

namespace BinInterval

theorem lt_bin {s s' e e' : Flt F} (h1 : s.isFin) (h2 : s'.isFin) (h : s.val < s'.val) :
    POrd.lt (BinInterval.Bin s e) (.Bin s' e') = true := by
  have hlt : POrd.lt s s' = true := by rw [Flt.lt_fin h1 h2]; simpa using h
  have : POrd.pcmp s s' = some .lt := by simpa [POrd.lt] using hlt
  show (thenCmp _ _ == _) = true
  rw [this]; rfl

theorem le_bin {s s' e e' : Flt F} (h1 : s.isFin) (h2 : s'.isFin) (h3 : e.isFin) (h4 : e'.isFin) (h : s.val ≤ s'.val) (h' : e.val ≤ e'.val) :
    POrd.le (BinInterval.Bin s e) (.Bin s' e') = true := by
  have a1 : POrd.le s s' = true := by rw [Flt.le_fin h1 h2]; simpa using h
  have a2 : POrd.le e e' = true := by rw [Flt.le_fin h3 h4]; simpa using h'
  have key : ∀ o o' : Option Ordering, (o == some .lt || o == some .eq) = true → (o' == some .lt || o' == some .eq) = true →
      (thenCmp o o' == some .lt || thenCmp o o' == some .eq) = true := by
    intro o o' x y
    cases o with
    | none => simp at x
    | some o => cases o <;> simp_all [thenCmp]
  have := key (POrd.pcmp s s') (POrd.pcmp e e') (by simpa [POrd.le] using a1) (by simpa [POrd.le] using a2)
  have h' : POrd.pcmp (BinInterval.Bin s e) (.Bin s' e') = thenCmp (POrd.pcmp s s') (POrd.pcmp e e') := rfl
  simpa [POrd.le, h'] using this

end BinInterval

/-- edges that do not decrease from one to the next do not decrease -/
theorem edges_mono {num : Nat} {e : Nat → Flt F} (hf : ∀ i, i ≤ num → (e i).isFin)
    (hm : ∀ i, i < num → POrd.le (e i) (e (i + 1)) = true) {i j : Nat} (hij : i ≤ j) (hj : j ≤ num) : (e i).val ≤ (e j).val := by
  induction j, hij using Nat.le_induction with
  | base => exact le_rfl
  | succ j hij ih =>
    have h := hm j (by omega)
    rw [Flt.le_fin (hf j (by omega)) (hf (j + 1) hj)] at h
    exact (ih (by omega)).trans (of_decide_eq_true h)

/-- **C60 (bins of a float uniform axis).** The bins between edges do not decrease with the bin number, and increase past every bin that is not of zero width
(neighbouring edges can coincide after rounding); the underflow bin is below all others; the overflow bin compares below every bin between edges. -/
theorem C60_uniform_float_bins_order {num : Nat} {low high : Flt F} {a : Uniform (Flt F)} (hnew : Uniform.new num low high = .ok (.ok a))
    (hl : low.isFin) (hh : high.isFin) (hn : num + 2 < usizeSize) (hp : num < 2 ^ (F.p - 1))
    (hw : num * pow2 F.emin ≤ |high.val - low.val|) (hs : 4 * (num * (|low.val| + |high.val|)) ≤ F.maxFin) :
    (∀ i j bi bj, 1 ≤ i → i < j → j ≤ num → a.bin i = .ok (some bi) → a.bin j = .ok (some bj) →
      POrd.le bi bj = true ∧ ∀ s e, bi = .Bin s e → POrd.lt s e = true → POrd.lt bi bj = true) ∧
    (∀ j bj b₀, 1 ≤ j → j ≤ num + 1 → a.bin 0 = .ok (some b₀) → a.bin j = .ok (some bj) → POrd.lt b₀ bj = true) ∧
    (∀ i bi b, 1 ≤ i → i ≤ num → a.bin i = .ok (some bi) → a.bin (num + 1) = .ok (some b) → POrd.lt b bi = true) := by
  obtain ⟨b0, bn, _, e, bk, hf, hm, _⟩ := C47_float_bins hnew hl hh hn hp hw hs
  have hf' := fun i hi => (hf i hi).1
  have bk' : ∀ i b, 1 ≤ i → i ≤ num → a.bin i = .ok (some b) → b = .Bin (e (i - 1)) (e i) := by
    intro i b h1 h2 h
    have := bk (i - 1) (by omega)
    rw [show i - 1 + 1 = i by omega, h] at this
    injection this with this; injection this
  refine ⟨?_, ?_, ?_⟩
  · intro i j bi bj hi hij hj h1 h2
    obtain rfl := bk' i bi hi (by omega) h1
    obtain rfl := bk' j bj (by omega) hj h2
    refine ⟨BinInterval.le_bin (hf' _ (by omega)) (hf' _ (by omega)) (hf' _ (by omega)) (hf' _ (by omega))
      (edges_mono hf' hm (by omega) (by omega)) (edges_mono hf' hm (by omega) (by omega)), ?_⟩
    intro s t hst hlt
    simp only [BinInterval.Bin.injEq] at hst
    obtain ⟨rfl, rfl⟩ := hst
    rw [Flt.lt_fin (hf' _ (by omega)) (hf' _ (by omega))] at hlt
    exact BinInterval.lt_bin (hf' _ (by omega)) (hf' _ (by omega))
      (lt_of_lt_of_le (of_decide_eq_true hlt) (edges_mono hf' hm (by omega) (by omega)))
  · intro j bj b₀ hj hj' h0 h1
    rw [b0] at h0
    injection h0 with h0; injection h0 with h0; subst h0
    rcases Nat.lt_or_ge num j with hlt | hge
    · obtain rfl : j = num + 1 := by omega
      rw [bn] at h1
      injection h1 with hb; injection hb with hb; subst hb; rfl
    · obtain rfl := bk' j bj hj hge h1; rfl
  · intro i bi b hi hi' h1 h2
    rw [bn] at h2
    injection h2 with h2; injection h2 with h2; subst h2
    obtain rfl := bk' i bi hi hi' h1; rfl

/-- If the nominal width exceeds the rounding errors of two edges, the edges are distinct, and the last one only can be `high()`. -/
theorem float_edges_strict {num : Nat} {low high : Flt F} {a : Uniform (Flt F)} (hnew : Uniform.new num low high = .ok (.ok a))
    (hl : low.isFin) (hh : high.isFin) (hp : num < 2 ^ (F.p - 1))
    (hw : num * pow2 F.emin ≤ |high.val - low.val|) (hs : 4 * (num * (|low.val| + |high.val|)) ≤ F.maxFin)
    (hr : num * (12 * pow2 (-(F.p : Int)) * (|low.val| + |high.val|)) < |high.val - low.val|) {e : Nat → Flt F}
    (hf : ∀ i, i ≤ num → (e i).isFin ∧ |(e i).val - (a.low.val + i * ((a.high.val - a.low.val) / num))| ≤ 6 * pow2 (-(F.p : Int)) * (|low.val| + |high.val|)) :
    (∀ i j, i < j → j ≤ num → (e i).val < (e j).val) ∧ ∀ i, i < num → (e i).val < a.high.val := by
  obtain ⟨sane, hnum, hM⟩ := Uniform.new_sane hnew hl hh hp hw hs
  have hnQ : (0 : ℚ) < num := by have := sane.numQ; rw [hnum] at this; linarith
  -- the width of the axis is |high - low|
  have hwid : a.high.val - a.low.val = |high.val - low.val| := by
    have hlt := sane.lt
    obtain ⟨r, hr, -, -, hok, hax⟩ := C03_new_float num low high
    have hra : r = .ok a := by rw [hr] at hnew; injection hnew
    obtain ⟨-, hsw, hns, -⟩ := hax a hra
    by_cases h : POrd.gt low high = true
    · obtain ⟨e1, e2⟩ := hsw h
      rw [e1, e2] at hlt ⊢
      rw [abs_of_neg (by linarith)]; ring
    · obtain ⟨e1, e2⟩ := hns (by simpa using h)
      rw [e1, e2] at hlt ⊢
      rw [abs_of_pos (by linarith)]
  set R := 6 * pow2 (-(F.p : Int)) * (|low.val| + |high.val|) with hR
  set w := (a.high.val - a.low.val) / num with hwdef
  have hR0 : 0 ≤ R := by
    have := pow2_pos (-(F.p : Int))
    have h1 := abs_nonneg low.val
    have h2 := abs_nonneg high.val
    positivity
  have hwR : 2 * R < w := by
    rw [hwdef, lt_div_iff₀ hnQ, hwid]
    calc 2 * R * num = num * (12 * pow2 (-(F.p : Int)) * (|low.val| + |high.val|)) := by rw [hR]; ring
      _ < _ := hr
  have hnw : (num : ℚ) * w = a.high.val - a.low.val := by rw [hwdef]; field_simp
  constructor
  · intro i j hij hj
    have h1 := abs_le.mp (hf i (by omega)).2
    have h2 := abs_le.mp (hf j hj).2
    have : (i : ℚ) + 1 ≤ j := by exact_mod_cast hij
    have : (i + 1) * w ≤ j * w := mul_le_mul_of_nonneg_right this (by linarith)
    nlinarith [h1.2, h2.1]
  · intro i hi
    have h1 := abs_le.mp (hf i (by omega)).2
    have : (i : ℚ) + 1 ≤ num := by exact_mod_cast hi
    have : (i + 1) * w ≤ num * w := mul_le_mul_of_nonneg_right this (by linarith)
    nlinarith [h1.2]

/-- **C60 (float uniform axes, strictly).** If the nominal bin width exceeds `12 * 2^-p * (|low| + |high|)`, the bins between edges strictly increase. -/
theorem C60_uniform_float_bins_strict {num : Nat} {low high : Flt F} {a : Uniform (Flt F)} (hnew : Uniform.new num low high = .ok (.ok a))
    (hl : low.isFin) (hh : high.isFin) (hn : num + 2 < usizeSize) (hp : num < 2 ^ (F.p - 1))
    (hw : num * pow2 F.emin ≤ |high.val - low.val|) (hs : 4 * (num * (|low.val| + |high.val|)) ≤ F.maxFin)
    (hr : num * (12 * pow2 (-(F.p : Int)) * (|low.val| + |high.val|)) < |high.val - low.val|)
    {i j : Nat} {bi bj : BinInterval (Flt F)} (hi : 1 ≤ i) (hij : i < j) (hj : j ≤ num) (h1 : a.bin i = .ok (some bi)) (h2 : a.bin j = .ok (some bj)) :
    POrd.lt bi bj = true := by
  obtain ⟨-, -, -, e, bk, hf, -, -⟩ := C47_float_bins hnew hl hh hn hp hw hs
  obtain ⟨st, -⟩ := float_edges_strict hnew hl hh hp hw hs hr hf
  have e1 := bk (i - 1) (by omega)
  have e2 := bk (j - 1) (by omega)
  rw [show i - 1 + 1 = i by omega, h1] at e1
  rw [show j - 1 + 1 = j by omega, h2] at e2
  simp only [Except.ok.injEq, Option.some.injEq] at e1 e2
  subst e1; subst e2
  exact BinInterval.lt_bin (hf _ (by omega)).1 (hf _ (by omega)).1 (st _ _ (by omega) (by omega))

/-- **C70 (float uniform axes).** If the nominal bin width exceeds `12 * 2^-p * (|low| + |high|)`, different bins have different labels. -/
theorem C70_uniform_float [Disp (Flt F)] {p : Option Nat} (hT : PlainText (Flt F) p)
    {num : Nat} {low high : Flt F} {a : Uniform (Flt F)} (hnew : Uniform.new num low high = .ok (.ok a))
    (hl : low.isFin) (hh : high.isFin) (hn : num + 2 < usizeSize) (hp : num < 2 ^ (F.p - 1))
    (hw : num * pow2 F.emin ≤ |high.val - low.val|) (hs : 4 * (num * (|low.val| + |high.val|)) ≤ F.maxFin)
    (hr : num * (12 * pow2 (-(F.p : Int)) * (|low.val| + |high.val|)) < |high.val - low.val|)
    {i j : Nat} {b b' : BinInterval (Flt F)} (hi : a.bin i = .ok (some b)) (hj : a.bin j = .ok (some b')) :
    Disp.fmt p b = Disp.fmt p b' ↔ i = j := by
  obtain ⟨b0, bn, bout, e, bk, hf, -, -⟩ := C47_float_bins hnew hl hh hn hp hw hs
  obtain ⟨st, sth⟩ := float_edges_strict hnew hl hh hp hw hs hr hf
  have shape : ∀ {i : Nat} {b : BinInterval (Flt F)}, a.bin i = .ok (some b) →
      (i = 0 ∧ b = .Underflow a.low) ∨ (i = num + 1 ∧ b = .Overflow a.high) ∨ ∃ k, i = k + 1 ∧ k < num ∧ b = .Bin (e k) (e (k + 1)) := by
    intro i b h
    rcases Nat.eq_zero_or_pos i with rfl | h0
    · rw [b0] at h; simp at h; exact .inl ⟨rfl, h.symm⟩
    · rcases Nat.lt_trichotomy i (num + 1) with hl | hl | hl
      · have hb := bk (i - 1) (by omega)
        rw [show i - 1 + 1 = i by omega, h] at hb
        simp only [Except.ok.injEq, Option.some.injEq] at hb
        exact .inr (.inr ⟨i - 1, by omega, by omega, by rw [show i - 1 + 1 = i by omega]; exact hb⟩)
      · subst hl; rw [bn] at h; simp at h; exact .inr (.inl ⟨rfl, h.symm⟩)
      · rw [bout i hl] at h; simp at h
  have hpos : ∀ {k k' : Nat}, k < num → k' < num → e k = e k' → k = k' := by
    intro k k' h h' heq
    rcases Nat.lt_trichotomy k k' with hk | hk | hk
    · have := st k k' hk h'.le; rw [heq] at this; exact absurd this (lt_irrefl _)
    · exact hk
    · have := st k' k hk h.le; rw [heq] at this; exact absurd this (lt_irrefl _)
  have hlast : ∀ {k : Nat}, k < num → a.high ≠ e k := by
    intro k h heq
    have := sth k h
    rw [← heq] at this
    exact absurd this (lt_irrefl _)
  constructor
  · intro h
    rcases (C70_bin_interval hT b b').mp h with rfl | ⟨s, t, _, ⟨rfl, rfl⟩ | ⟨rfl, rfl⟩⟩
    · rcases shape hi with ⟨h1, rfl⟩ | ⟨h1, rfl⟩ | ⟨k, h1, hk, rfl⟩ <;>
        rcases shape hj with ⟨h1', h3⟩ | ⟨h1', h3⟩ | ⟨k', h1', hk', h3⟩ <;> simp at h3 <;> try omega
      have := hpos hk hk' h3.1
      omega
    · rcases shape hi with ⟨h1, h3⟩ | ⟨h1, h3⟩ | ⟨k, h1, hk, h3⟩ <;> simp at h3
      rcases shape hj with ⟨h1', h3'⟩ | ⟨h1', h3'⟩ | ⟨k', h1', hk', h3'⟩ <;> simp at h3'
      exact absurd (h3.symm.trans h3'.1) (hlast hk')
    · rcases shape hj with ⟨h1, h3⟩ | ⟨h1, h3⟩ | ⟨k, h1, hk, h3⟩ <;> simp at h3
      rcases shape hi with ⟨h1', h3'⟩ | ⟨h1', h3'⟩ | ⟨k', h1', hk', h3'⟩ <;> simp at h3'
      exact absurd (h3.symm.trans h3'.1) (hlast hk')
  · rintro rfl
    rw [hi] at hj
    simp at hj
    rw [hj]

end NdHist
