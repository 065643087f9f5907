import Verif.Model.ErrorText
import Verif.Model.Display
import Verif.Props.Variable
import Verif.Props.Category
import Verif.Props.UniformInt
/-!
# C70: the printed label of a bin identifies it

`Display`, `LowerExp` and `UpperExp` of `BinInterval` are generated by one macro (bininterval.rs:127-159) and differ only in how the end
points are printed; that is the parameter `Disp.fmt p` here, so the theorems hold for all three.
-/
namespace NdHist

/-- Different values of `T` print differently and never with a comma: true of integers and floats in the formats `{}`, `{:e}`, `{:E}`
(std prints the shortest text that reads back as the same number). -/
structure PlainText (T : Type) [Disp T] (p : Option Nat) : Prop where
  inj : ∀ a b : T, Disp.fmt p a = Disp.fmt p b → a = b
  noComma : ∀ a : T, ',' ∉ (Disp.fmt p a).toList

theorem split_comma {x x' y y' : List Char} (hx : ',' ∉ x) (hx' : ',' ∉ x') (h : x ++ ',' :: y = x' ++ ',' :: y') :
    x = x' ∧ y = y' := by
  induction x generalizing x' with
  | nil =>
    cases x' with
    | nil => simpa using h
    | cons c x' => simp at h; simp [← h.1] at hx'
  | cons a x ih =>
    cases x' with
    | nil => simp at h; simp [h.1] at hx
    | cons c x' =>
      simp at h hx hx'
      obtain ⟨h1, h2⟩ := ih hx.2 hx'.2 h.2
      exact ⟨by rw [h.1, h1], h2⟩

section
variable {T : Type} [Disp T] {p : Option Nat}

theorem fmt_underflow (e : T) : (Disp.fmt p (BinInterval.Underflow e)).toList = "(-inf, ".toList ++ (Disp.fmt p e).toList ++ [')'] := by
  simp [Disp.fmt]
theorem fmt_overflow (s : T) : (Disp.fmt p (BinInterval.Overflow s)).toList =
    '[' :: ((Disp.fmt p s).toList ++ ',' :: (' ' :: "inf".toList ++ [')'])) := by
  simp [Disp.fmt]
theorem fmt_bin (s e : T) : (Disp.fmt p (BinInterval.Bin s e)).toList =
    '[' :: ((Disp.fmt p s).toList ++ ',' :: (' ' :: (Disp.fmt p e).toList ++ [')'])) := by
  simp [Disp.fmt]

/-- **C70 (intervals).** Two intervals print the same exactly if they are equal, or one is an overflow bin and the other a bin with the
same start whose end prints as `inf`. -/
theorem C70_bin_interval (hT : PlainText T p) (b b' : BinInterval T) :
    Disp.fmt p b = Disp.fmt p b' ↔ b = b' ∨ ∃ s e : T, Disp.fmt p e = "inf" ∧
      (b = .Overflow s ∧ b' = .Bin s e ∨ b = .Bin s e ∧ b' = .Overflow s) := by
  have hl : ∀ x y : T, (Disp.fmt p x).toList = (Disp.fmt p y).toList → x = y :=
    fun x y h => hT.inj x y (String.toList_inj.mp h)
  constructor
  · intro h
    have h := congrArg String.toList h
    cases b with
    | Underflow e =>
      cases b' with
      | Underflow e' =>
        rw [fmt_underflow, fmt_underflow] at h
        left
        rw [hl e e' (by simpa using h)]
      | Overflow s => rw [fmt_underflow, fmt_overflow] at h; simp at h
      | Bin s e' => rw [fmt_underflow, fmt_bin] at h; simp at h
    | Overflow s =>
      cases b' with
      | Underflow e' => rw [fmt_underflow, fmt_overflow] at h; simp at h
      | Overflow s' =>
        rw [fmt_overflow, fmt_overflow, List.cons_inj_right] at h
        obtain ⟨h1, _⟩ := split_comma (hT.noComma _) (hT.noComma _) h
        left; rw [hl _ _ h1]
      | Bin s' e' =>
        rw [fmt_overflow, fmt_bin, List.cons_inj_right] at h
        obtain ⟨h1, h2⟩ := split_comma (hT.noComma _) (hT.noComma _) h
        right
        obtain rfl := hl _ _ h1
        refine ⟨s, e', ?_, .inl ⟨rfl, rfl⟩⟩
        apply String.toList_inj.mp
        rw [List.cons_append, List.cons_append, List.cons_inj_right, List.append_cancel_right_eq] at h2
        exact h2.symm
    | Bin s e =>
      cases b' with
      | Underflow e' => rw [fmt_underflow, fmt_bin] at h; simp at h
      | Overflow s' =>
        rw [fmt_overflow, fmt_bin, List.cons_inj_right] at h
        obtain ⟨h1, h2⟩ := split_comma (hT.noComma _) (hT.noComma _) h
        right
        obtain rfl := hl _ _ h1
        refine ⟨s, e, ?_, .inr ⟨rfl, rfl⟩⟩
        apply String.toList_inj.mp
        rw [List.cons_append, List.cons_append, List.cons_inj_right, List.append_cancel_right_eq] at h2
        exact h2
      | Bin s' e' =>
        rw [fmt_bin, fmt_bin, List.cons_inj_right] at h
        obtain ⟨h1, h2⟩ := split_comma (hT.noComma _) (hT.noComma _) h
        left
        rw [hl _ _ h1, hl e e' (by simpa using h2)]
  · rintro (rfl | ⟨s, e, he, ⟨rfl, rfl⟩ | ⟨rfl, rfl⟩⟩)
    · rfl
    · simp [Disp.fmt] at he ⊢
      rw [he]
      apply String.toList_inj.mp; simp
    · simp [Disp.fmt] at he ⊢
      rw [he]
      apply String.toList_inj.mp; simp

/-- **C70 (category bins).** Two category bins print the same exactly if they are equal, or one is the overflow bin and the other
that of a category printed as `overflow`. -/
theorem C70_single_value (hT : ∀ a b : T, Disp.fmt none a = Disp.fmt none b → a = b) (b b' : SingleValueBinInterval T) :
    Disp.fmt p b = Disp.fmt p b' ↔ b = b' ∨ ∃ v : T, Disp.fmt none v = "overflow" ∧
      (b = .Overflow ∧ b' = .Bin v ∨ b = .Bin v ∧ b' = .Overflow) := by
  have hov : (Disp.fmt p (SingleValueBinInterval.Overflow : SingleValueBinInterval T)).toList = '{' :: ("overflow".toList ++ ['}']) := by
    simp [Disp.fmt]
  have hbin : ∀ v : T, (Disp.fmt p (SingleValueBinInterval.Bin v)).toList = '{' :: ((Disp.fmt none v).toList ++ ['}']) := by
    intro v; simp [Disp.fmt]
  constructor
  · intro h
    have h := congrArg String.toList h
    cases b with
    | Overflow =>
      cases b' with
      | Overflow => exact .inl rfl
      | Bin v =>
        rw [hov, hbin, List.cons_inj_right, List.append_cancel_right_eq] at h
        exact .inr ⟨v, String.toList_inj.mp h.symm, .inl ⟨rfl, rfl⟩⟩
    | Bin v =>
      cases b' with
      | Overflow =>
        rw [hov, hbin, List.cons_inj_right, List.append_cancel_right_eq] at h
        exact .inr ⟨v, String.toList_inj.mp h, .inr ⟨rfl, rfl⟩⟩
      | Bin v' =>
        rw [hbin, hbin, List.cons_inj_right, List.append_cancel_right_eq] at h
        rw [hT _ _ (String.toList_inj.mp h)]
        exact .inl rfl
  · rintro (rfl | ⟨v, hv, ⟨rfl, rfl⟩ | ⟨rfl, rfl⟩⟩)
    · rfl
    · apply String.toList_inj.mp; rw [hov, hbin, hv]
    · apply String.toList_inj.mp; rw [hov, hbin, hv]

end

theorem lt_self_false {T : Type} [POrd T] [LawfulPOrd T] (a : T) : ¬ POrd.lt a a = true := by
  rw [LawfulPOrd.lt_iff]
  rintro ⟨x, y, hx, hy, h⟩
  rw [hx] at hy
  simp only [Option.some.injEq] at hy
  subst hy
  exact lt_irrefl _ h

section
variable [cfg : Cfg] {T : Type} [POrd T] [LawfulPOrd T] [StdLib] [Disp T] {p : Option Nat}

/-- **C70 (variable axes).** Bins of an axis with distinct edges have the same label exactly if they are the same bin — even if an
edge prints as `inf`. -/
theorem C70_variable (hT : PlainText T p) {edges : List T} {a : Variable T} (hnew : Variable.new edges = .ok (.ok a))
    (hmem : edges.length + 1 < usizeSize) (hd : edges.Pairwise (fun x y => POrd.eq x y = false))
    {i j : Nat} {b b' : BinInterval T} (hi : a.bin i = .ok (some b)) (hj : a.bin j = .ok (some b')) :
    Disp.fmt p b = Disp.fmt p b' ↔ i = j := by
  obtain ⟨h2, _, p1, ok1⟩ := Variable.new_ok hnew
  have hlen := p1.length_eq
  -- positions of edges are determined by the edges
  have hpos : ∀ {i j : Nat} {e : T}, a.binEdges[i]? = some e → a.binEdges[j]? = some e → i = j := by
    intro i j e h h'
    obtain ⟨hi, h⟩ := List.getElem?_eq_some_iff.mp h
    obtain ⟨hj, h'⟩ := List.getElem?_eq_some_iff.mp h'
    rcases Nat.lt_trichotomy i j with hij | hij | hij
    · have := strict_of_distinct hnew hd hij hj
      rw [h, h'] at this
      exact absurd this (lt_self_false e)
    · exact hij
    · have := strict_of_distinct hnew hd hij hi
      rw [h, h'] at this
      exact absurd this (lt_self_false e)
  obtain ⟨_, ⟨e0, he0, _, b0⟩, ⟨en, hen, _, bn⟩, bk, bout⟩ := C13_variable_bins hnew hmem
  have shape : ∀ {i : Nat} {b : BinInterval T}, a.bin i = .ok (some b) →
      (i = 0 ∧ b = .Underflow e0) ∨ (i = edges.length ∧ b = .Overflow en) ∨
      ∃ k s e, i = k + 1 ∧ k + 1 < edges.length ∧ b = .Bin s e ∧ a.binEdges[k]? = some s := by
    intro i b h
    rcases Nat.eq_zero_or_pos i with rfl | h0
    · rw [b0] at h; simp at h; exact .inl ⟨rfl, h.symm⟩
    · rcases Nat.lt_trichotomy i edges.length with hl | hl | hl
      · obtain ⟨s, e, hs, _, hb⟩ := bk (i - 1) (by omega)
        rw [show i - 1 + 1 = i by omega, h] at hb
        simp at hb
        exact .inr (.inr ⟨i - 1, s, e, by omega, by omega, hb, hs⟩)
      · subst hl; rw [bn] at h; simp at h; exact .inr (.inl ⟨rfl, h.symm⟩)
      · rw [bout i hl] at h; simp at h
  constructor
  · intro h
    rcases (C70_bin_interval hT b b').mp h with rfl | ⟨s, e, _, ⟨rfl, rfl⟩ | ⟨rfl, rfl⟩⟩
    · rcases shape hi with ⟨h1, rfl⟩ | ⟨h1, rfl⟩ | ⟨k, s, e, h1, _, rfl, h4⟩ <;>
        rcases shape hj with ⟨h1', h3⟩ | ⟨h1', h3⟩ | ⟨k', s', e', h1', _, h3, h4'⟩ <;> simp at h3 <;> try omega
      obtain ⟨rfl, rfl⟩ := h3
      have := hpos h4 h4'
      omega
    · rcases shape hi with ⟨h1, h3⟩ | ⟨h1, h3⟩ | ⟨k, s, e, h1, _, h3, h4⟩ <;> simp at h3
      rcases shape hj with ⟨h1', h3'⟩ | ⟨h1', h3'⟩ | ⟨k', s', e', h1', h5', h3', h4'⟩ <;> simp at h3'
      subst h3
      obtain ⟨rfl, rfl⟩ := h3'
      have := hpos hen h4'
      omega
    · rcases shape hj with ⟨h1, h3⟩ | ⟨h1, h3⟩ | ⟨k, s, e, h1, _, h3, h4⟩ <;> simp at h3
      rcases shape hi with ⟨h1', h3'⟩ | ⟨h1', h3'⟩ | ⟨k', s', e', h1', h5', h3', h4'⟩ <;> simp at h3'
      subst h3
      obtain ⟨rfl, rfl⟩ := h3'
      have := hpos hen h4'
      omega
  · rintro rfl
    rw [hi] at hj
    simp at hj
    rw [hj]

end

section
variable [cfg : Cfg] {τ : IntTy} [Disp (MInt τ)] {p : Option Nat}

/-- **C70 (integer uniform axes).** The same for integer uniform axes whose bins can be computed (C02). -/
theorem C70_uniform_int (hT : PlainText (MInt τ) p) {num : Nat} {low step : MInt τ} {a : Uniform (MInt τ)}
    (hnew : Uniform.withStepSize num low step = .ok (.ok a)) (hfit : (num : ℤ) * (num * step.val) ≤ τ.max)
    (hfit' : Cfg.checked = false → (num : ℤ) * step.val ≤ τ.max ∧ low.val + num * step.val ≤ τ.max)
    (hnum : num + 2 < usizeSize)
    {i j : Nat} {b b' : BinInterval (MInt τ)} (hi : a.bin i = .ok (some b)) (hj : a.bin j = .ok (some b')) :
    Disp.fmt p b = Disp.fmt p b' ↔ i = j := by
  obtain ⟨h0, hnmax, hs, _⟩ := Uniform.withStepSize_ok hnew hfit'
  obtain ⟨_, b0, ⟨en, hen, bn⟩, bk, bout⟩ := C02_uniform_int_bins_partial hnew hfit' hnum
  have shape : ∀ {i : Nat} {b : BinInterval (MInt τ)}, a.bin i = .ok (some b) →
      (i = 0 ∧ b = .Underflow low) ∨ (i = num + 1 ∧ b = .Overflow en) ∨
      ∃ k : Nat, ∃ s e, i = k + 1 ∧ k < num ∧ b = .Bin s e ∧ s.val = low.val + k * step.val := by
    intro i b h
    rcases Nat.eq_zero_or_pos i with rfl | h1
    · rw [b0] at h; simp at h; exact .inl ⟨rfl, h.symm⟩
    · rcases Nat.lt_trichotomy i (num + 1) with hl | hl | hl
      · obtain ⟨s, e, hs1, _, hb⟩ := bk (i - 1) (by omega) (by
          have : (((i - 1 : ℕ) : ℤ) + 1) ≤ num := by omega
          calc (((i - 1 : ℕ) : ℤ) + 1) * (num * step.val) ≤ num * (num * step.val) :=
                mul_le_mul_of_nonneg_right this (by positivity)
            _ ≤ τ.max := hfit)
        rw [show i - 1 + 1 = i by omega, h] at hb
        simp at hb
        exact .inr (.inr ⟨i - 1, s, e, by omega, by omega, hb, hs1⟩)
      · subst hl; rw [bn] at h; simp at h; exact .inr (.inl ⟨rfl, h.symm⟩)
      · rw [bout i (by omega)] at h; simp at h
  have hpos : ∀ {k k' : Nat} {s : MInt τ}, s.val = low.val + k * step.val → s.val = low.val + k' * step.val → k = k' := by
    intro k k' s h h'
    have : (k : ℤ) * step.val = k' * step.val := by omega
    have := mul_right_cancel₀ hs.ne' this
    omega
  constructor
  · intro h
    rcases (C70_bin_interval hT b b').mp h with rfl | ⟨s, e, _, ⟨rfl, rfl⟩ | ⟨rfl, rfl⟩⟩
    · rcases shape hi with ⟨h1, rfl⟩ | ⟨h1, rfl⟩ | ⟨k, s, e, h1, _, rfl, h4⟩ <;>
        rcases shape hj with ⟨h1', h3⟩ | ⟨h1', h3⟩ | ⟨k', s', e', h1', _, h3, h4'⟩ <;> simp at h3 <;> try omega
      obtain ⟨rfl, rfl⟩ := h3
      have := hpos h4 h4'
      omega
    · rcases shape hi with ⟨h1, h3⟩ | ⟨h1, h3⟩ | ⟨k, s, e, h1, _, h3, h4⟩ <;> simp at h3
      rcases shape hj with ⟨h1', h3'⟩ | ⟨h1', h3'⟩ | ⟨k', s', e', h1', h5', h3', h4'⟩ <;> simp at h3'
      subst h3
      obtain ⟨rfl, rfl⟩ := h3'
      have := hpos (k := num) hen h4'
      omega
    · rcases shape hj with ⟨h1, h3⟩ | ⟨h1, h3⟩ | ⟨k, s, e, h1, _, h3, h4⟩ <;> simp at h3
      rcases shape hi with ⟨h1', h3'⟩ | ⟨h1', h3'⟩ | ⟨k', s', e', h1', h5', h3', h4'⟩ <;> simp at h3'
      subst h3
      obtain ⟨rfl, rfl⟩ := h3'
      have := hpos (k := num) hen h4'
      omega
  · rintro rfl
    rw [hi] at hj
    simp at hj
    rw [hj]

end

section
variable [cfg : Cfg] {T : Type} [DecidableEq T] [Disp T] {p : Option Nat}

/-- **C70 (category axes).** Bins of a category axis with distinct categories, none of which prints as `overflow`, have the same label
exactly if they are the same bin. -/
theorem C70_category (hT : ∀ a b : T, Disp.fmt none a = Disp.fmt none b → a = b) {values : List T}
    (hmem : values.length + 1 < usizeSize) (hd : values.Nodup) (hov : ∀ v ∈ values, Disp.fmt none v ≠ "overflow")
    {i j : Nat} {b b' : SingleValueBinInterval T} (hi : (Category.new values).bin i = .ok (some b))
    (hj : (Category.new values).bin j = .ok (some b')) :
    Disp.fmt p b = Disp.fmt p b' ↔ i = j := by
  obtain ⟨_, bk, bn, bout⟩ := C16_category_bins values hmem
  have shape : ∀ {i : Nat} {b : SingleValueBinInterval T}, (Category.new values).bin i = .ok (some b) →
      (i = values.length ∧ b = .Overflow) ∨ ∃ v, b = .Bin v ∧ values[i]? = some v := by
    intro i b h
    rcases Nat.lt_trichotomy i values.length with hl | hl | hl
    · have hv := List.getElem?_eq_getElem hl
      rw [bk i _ hv] at h
      simp at h
      exact .inr ⟨_, h.symm, hv⟩
    · subst hl; rw [bn] at h; simp at h; exact .inl ⟨rfl, h.symm⟩
    · rw [bout i hl] at h; simp at h
  constructor
  · intro h
    rcases (C70_single_value hT b b').mp h with rfl | ⟨v, hv, h⟩
    · rcases shape hi with ⟨h1, rfl⟩ | ⟨v, rfl, h4⟩ <;> rcases shape hj with ⟨h1', h3⟩ | ⟨v', h3, h4'⟩ <;> simp at h3
      · omega
      · subst h3
        obtain ⟨k1, g1⟩ := List.getElem?_eq_some_iff.mp h4
        obtain ⟨k2, g2⟩ := List.getElem?_eq_some_iff.mp h4'
        exact (List.Nodup.getElem_inj_iff hd).mp (g1.trans g2.symm)
    · exfalso
      rcases h with ⟨rfl, rfl⟩ | ⟨rfl, rfl⟩
      · rcases shape hj with ⟨_, h3⟩ | ⟨v', h3, h4⟩ <;> simp at h3
        subst h3
        exact hov v (List.mem_of_getElem? h4) hv
      · rcases shape hi with ⟨_, h3⟩ | ⟨v', h3, h4⟩ <;> simp at h3
        subst h3
        exact hov v (List.mem_of_getElem? h4) hv
  · rintro rfl
    rw [hi] at hj
    simp at hj
    rw [hj]

end

/-- **C70 (errors).** Converting an error to the crate's `Error` with `?` keeps its text, and two errors have the same text exactly if
they are equal. The text of a failed conversion of a bin to a range is none of them. -/
theorem C70_errors :
    (∀ e : AxisError, (Error.ofAxisError e).text = e.text) ∧
    (∀ e : BinaryOperationError, (Error.ofBinaryOperationError e).text = e.text) ∧
    (∀ e e' : Error, e.text = e'.text ↔ e = e') ∧ ∀ (e : Error) (c : BinIntervalConversionError), e.text ≠ c.text := by
  refine ⟨fun _ => rfl, fun _ => rfl, ?_, ?_⟩
  · intro e e'
    cases e <;> rename_i e <;> cases e <;> cases e' <;> rename_i e' <;> cases e' <;> decide
  · intro e c
    cases e <;> rename_i e <;> cases e <;> cases c <;> decide

section
attribute [local instance] dbg64

/-- text as is -/
local instance dispStringL : Disp String := ⟨fun _ s => s⟩

/-- The bins 0 and 2 of `Category::new(["overflow", "b"])` are different but print the same. -/
theorem C70_counterexample_overflow_category :
    Category.bin (Category.new ["overflow", "b"]) 0 = .ok (some (.Bin "overflow")) ∧
    Category.bin (Category.new ["overflow", "b"]) 2 = .ok (some .Overflow) ∧
    Disp.fmt none (SingleValueBinInterval.Bin "overflow") = Disp.fmt none (SingleValueBinInterval.Overflow : SingleValueBinInterval String) := by
  decide

end
end NdHist
