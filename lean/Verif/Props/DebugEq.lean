import Verif.Props.Debug
import Verif.Props.AxisEq
import Verif.Props.Hasher
import Verif.Model.Eq
/-!
# C96: debug texts and `==`; objects with one text; numbers with a point
-/
namespace NdHist

/-! ## Objects that have one text -/
section
variable {T W O C : Type} [Dbg T] [Dbg W] [TypeName O] [Dbg C]

theorem forall₂_unique {α β : Type} {P : α → β → Prop} (h : ∀ {a s t}, P a s → P a t → s = t) : ∀ {l : List α} {u v : List β}, List.Forall₂ P l u → List.Forall₂ P l v → u = v := by
  intro l
  induction l with
  | nil => intro u v hu hv; cases hu; cases hv; rfl
  | cons a l ih => intro u v hu hv; cases hu with | cons h1 h2 => cases hv with | cons h3 h4 => rw [h h1 h3, ih h2 h4]

/-- **C96 (one text, axes).** Numbers, and uniform and variable axes of numbers, always print the same text. -/
theorem C96_unique_axes (hT : DebugUnique T) : DebugUnique (Uniform T) ∧ DebugUnique (UniformNoFlow T) ∧ DebugUnique (UniformCyclic T) ∧ DebugUnique (Variable T) ∧ DebugUnique (VariableNoFlow T) ∧
    DebugUnique (VariableCyclic T) ∧ DebugUnique (BinInterval T) ∧ DebugUnique (SingleValueBinInterval T) ∧ DebugUnique (List T) := by
  have hL : DebugUnique (List T) := by
    rintro st a s t ⟨u, hu, rfl⟩ ⟨v, hv, rfl⟩
    rw [forall₂_unique (P := Dbg.text st.inner) (fun h h' => hT h h') hu hv]
  have hU : DebugUnique (Uniform T) := by
    rintro st a s t ⟨l, h, d, h1, h2, h3, rfl⟩ ⟨l', h', d', h1', h2', h3', rfl⟩
    rw [hT h1 h1', hT h2 h2', hT h3 h3']
  have hV : DebugUnique (Variable T) := by
    rintro st a s t ⟨l, h1, rfl⟩ ⟨l', h1', rfl⟩
    rw [hL h1 h1']
  have hUN : DebugUnique (UniformNoFlow T) := by rintro st a s t ⟨l, h1, rfl⟩ ⟨l', h1', rfl⟩; rw [hU h1 h1']
  have hVN : DebugUnique (VariableNoFlow T) := by rintro st a s t ⟨l, h1, rfl⟩ ⟨l', h1', rfl⟩; rw [hV h1 h1']
  refine ⟨hU, hUN, ?_, hV, hVN, ?_, ?_, ?_, hL⟩
  · rintro st a s t ⟨l, h1, rfl⟩ ⟨l', h1', rfl⟩; rw [hUN h1 h1']
  · rintro st a s t ⟨l, h1, rfl⟩ ⟨l', h1', rfl⟩; rw [hVN h1 h1']
  · intro st a s t h h'
    cases a with
    | Underflow e => obtain ⟨u, h1, rfl⟩ := h; obtain ⟨v, h2, rfl⟩ := h'; rw [hT h1 h2]
    | Overflow e => obtain ⟨u, h1, rfl⟩ := h; obtain ⟨v, h2, rfl⟩ := h'; rw [hT h1 h2]
    | Bin x e => obtain ⟨u, u', h1, h2, rfl⟩ := h; obtain ⟨v, v', h3, h4, rfl⟩ := h'; rw [hT h1 h3, hT h2 h4]
  · intro st a s t h h'
    cases a with
    | Overflow => cases h; cases h'; rfl
    | Bin x => obtain ⟨u, h1, rfl⟩ := h; obtain ⟨v, h3, rfl⟩ := h'; rw [hT h1 h3]

/-- **C96 (one text, values and dense histograms).** Bin values, and dense histograms of axes that print one text, always print the same text; integers, floats and strings do. -/
theorem C96_unique (hT : DebugUnique T) (hW : DebugUnique W) (hC : DebugUnique C) :
    DebugUnique (Sum T) ∧ DebugUnique (WeightedSum T) ∧ DebugUnique (Mean T O C) ∧ DebugUnique (WeightedMean T W O C) ∧ DebugUnique (AxesTuple1 T) ∧ DebugUnique (VecHistogram T W) := by
  have hN : DebugUnique (List Nat) := (C96_unique_axes (T := Nat) (by rintro st a s t rfl rfl; rfl)).2.2.2.2.2.2.2.2
  refine ⟨?_, ?_, ?_, ?_, ?_, ?_⟩
  · rintro st a s t ⟨l, h1, rfl⟩ ⟨l', h1', rfl⟩; rw [hT h1 h1']
  · rintro st a s t ⟨l, m, h1, h2, rfl⟩ ⟨l', m', h1', h2', rfl⟩; rw [hT h1 h1', hT h2 h2']
  · rintro st a s t ⟨l, m, n, h1, h2, h3, rfl⟩ ⟨l', m', n', h1', h2', h3', rfl⟩; rw [hT h1 h1', hT h2 h2', hC h3 h3']
  · rintro st a s t ⟨l, m, n, o, p, h1, h2, h3, h4, h5, rfl⟩ ⟨l', m', n', o', p', h1', h2', h3', h4', h5', rfl⟩
    rw [hT h1 h1', hT h2 h2', hW h3 h3', hW h4 h4', hC h5 h5']
  · rintro st a s t ⟨l, m, h1, h2, rfl⟩ ⟨l', m', h1', h2', rfl⟩; rw [hT h1 h1', hN h2 h2']
  · rintro st a s t ⟨l, m, h1, h2, rfl⟩ ⟨l', m', h1', h2', rfl⟩
    rw [hT h1 h1', (C96_unique_axes hW).2.2.2.2.2.2.2.2 h2 h2']

/-- **C96 (one text, numbers).** -/
theorem C96_unique_numbers {τ : IntTy} {F : FFmt} (pr : Char → Bool) : DebugUnique (MInt τ) ∧ DebugUnique Nat ∧ DebugUnique (Flt F) ∧ @DebugUnique String (strDbg pr) :=
  ⟨by rintro st a s t rfl rfl; rfl, by rintro st a s t rfl rfl; rfl, by rintro st a s t rfl rfl; rfl, fun h h' => h.trans h'.symm⟩
end

/-! ## `==` -/
section
variable {A V : Type} [PEq A] [PEq V] [Dbg A] [Dbg V]

/-- **C96 (equal dense histograms).** If equality of axes and values is identity, dense histograms are equal (`==`) exactly if they print the same text. -/
theorem C96_equal_dense {R : A → A → Prop} (hA : DebugIdentifies A R) (hV : DebugIdentifies V Eq) (heq : ∀ v w : V, PEq.peq v w = true ↔ v = w) (h g : VecHistogram A V)
    (hax : PEq.peq h.axes g.axes = true ↔ R h.axes g.axes) (st : DSty) : h.beq g = true ↔ SameText st h g := by
  rw [C96_same_text (C96_vec hA hV) st h g, VecHistogram.beq, Bool.and_eq_true, hax]
  refine and_congr_right fun _ => ?_
  rw [← List.forall₂_eq_eq_eq, List.forall₂_iff_zip, Bool.and_eq_true, beq_iff_eq, List.all_eq_true]
  refine and_congr_right fun _ => ?_
  constructor
  · intro hh a b hab; exact (heq a b).1 (hh (a, b) hab)
  · intro hh x hx; exact (heq _ _).2 (hh hx)

/-- **C96 (equal sparse histograms).** The same for sparse histograms: equal ones have the same texts, one for each order in which the map is iterated; histograms that are not equal have no text in common. -/
theorem C96_equal_sparse {R : A → A → Prop} (hA : DebugIdentifies A R) (hV : DebugIdentifies V Eq) (heq : ∀ v w : V, PEq.peq v w = true ↔ v = w) (h g : HashHistogram A V)
    (hn : h.values.NodupKeys) (hn' : g.values.NodupKeys) (hax : PEq.peq h.axes g.axes = true ↔ R h.axes g.axes) (st : DSty) :
    (h.beq g = true ↔ SameText st h g) ∧ (h.beq g = true → ∀ s, Dbg.text st h s ↔ Dbg.text st g s) := by
  classical
  have key : h.beq g = true ↔ R h.axes g.axes ∧ h.values.SameEntries g.values := by
    have hp : (PEq.peq : V → V → Bool) = fun x y => decide (x = y) := by
      funext x y; rw [Bool.eq_iff_iff, heq, decide_eq_true_iff]
    rw [HashHistogram.beq, Bool.and_eq_true, hax, hp, HMap.beq_iff hn hn']
    refine and_congr_right fun _ => ⟨HMap.perm_of_get_eq hn hn', fun hp k => ?_⟩
    cases hg : h.values.get k with
    | some v =>
      rw [← HMap.mem_entries_iff hn] at hg
      exact ((HMap.mem_entries_iff hn' k v).1 (hp.mem_iff.1 hg)).symm
    | none =>
      cases hg' : g.values.get k with
      | none => rfl
      | some v =>
        rw [← HMap.mem_entries_iff hn'] at hg'
        rw [(HMap.mem_entries_iff hn k v).1 (hp.mem_iff.2 hg')] at hg
        cases hg
  refine ⟨by rw [C96_same_text (C96_sparse hA hV) st h g, key], fun he s => ?_⟩
  have hr := key.1 he
  have hs := C96_sparse hA hV
  refine ⟨hs.resp hr, fun hg => ?_⟩
  obtain ⟨u, hu, hu'⟩ := (C96_same_text hs st h g).2 hr
  have : SameText st g h := ⟨u, hu', hu⟩
  exact hs.resp ((C96_same_text hs st g h).1 this) hg
end

/-- **C96 (equal category axes).** Category axes print the same text exactly if they were built from the same categories in the same order. -/
theorem C96_category_new [Cfg] {T : Type} [DecidableEq T] [Dbg T] (hT : DebugIdentifies T Eq) (st : DSty) (vs vs' : List T) :
    (SameText st (Category.new vs) (Category.new vs') ↔ vs = vs') ∧ (SameText st (CategoryNoFlow.new vs) (CategoryNoFlow.new vs') ↔ vs = vs') := by
  have key : (Category.new vs).SameMaps (Category.new vs') ↔ vs = vs' := by
    constructor
    · rintro ⟨h1, h2⟩
      rw [← (C45_category vs vs').1]
      show (HMap.beq (fun i j => decide (i = j)) (Category.new vs).mapTToIndex (Category.new vs').mapTToIndex &&
        HMap.beq (fun x y => decide (x = y)) (Category.new vs).mapIndexToT (Category.new vs').mapIndexToT) = true
      have perm_get : ∀ {K V : Type} [DecidableEq K] {m m' : HMap K V}, m.NodupKeys → m'.NodupKeys → m.entries.Perm m'.entries → ∀ k, m.get k = m'.get k := by
        intro K V _ m m' hn hn' hp k
        cases hg : m.get k with
        | some v =>
          rw [← HMap.mem_entries_iff hn] at hg
          exact ((HMap.mem_entries_iff hn' k v).1 (hp.mem_iff.1 hg)).symm
        | none =>
          cases hg' : m'.get k with
          | none => rfl
          | some v =>
            rw [← HMap.mem_entries_iff hn'] at hg'
            rw [(HMap.mem_entries_iff hn k v).1 (hp.mem_iff.2 hg')] at hg
            cases hg
      rw [Bool.and_eq_true, HMap.beq_iff (Category.new_nodup vs).1 (Category.new_nodup vs').1, HMap.beq_iff (Category.new_nodup vs).2 (Category.new_nodup vs').2]
      exact ⟨perm_get (Category.new_nodup vs).1 (Category.new_nodup vs').1 h1, perm_get (Category.new_nodup vs).2 (Category.new_nodup vs').2 h2⟩
    · rintro rfl; exact ⟨.refl _, .refl _⟩
  exact ⟨by rw [C96_same_text (C96_category hT).1, key], by rw [C96_same_text (C96_category hT).2]; exact key⟩

/-! ## Floats -/

theorem pcmp_ofRat {F : FFmt} {m : ℚ} (hm : F.Rep m) {x : ℚ} (hx : 0 ≤ x) : Flt.pcmp (.fin false m hm : Flt F) (.ofRat x) = some (compare m (F.rnd x)) := by
  have h0 : decide (x < 0) = false := decide_eq_false (not_lt.2 hx)
  unfold Flt.ofRat Flt.round
  split
  · rename_i h
    simp only [Flt.pcmp, Flt.sval, h0, abs_of_nonneg hx, Bool.false_eq_true, if_false]
  · rename_i h
    rw [abs_of_nonneg hx] at h
    have : m < F.rnd x := lt_of_le_of_lt hm.le_maxFin (not_le.1 h)
    simp only [Flt.pcmp, h0, Bool.false_eq_true, if_false, compare_lt_iff_lt.2 this]

theorem dbgExp_iff {F : FFmt} (m : ℚ) (hm : F.Rep m) : Flt.dbgExp m hm = true ↔ (m ≠ 0 ∧ m < F.rnd (1 / 10 ^ 4)) ∨ F.rnd (10 ^ 16) ≤ m := by
  unfold Flt.dbgExp
  simp only [pcmp_ofRat hm (show (0 : ℚ) ≤ 1 / 10 ^ 4 by positivity), pcmp_ofRat hm (show (0 : ℚ) ≤ 10 ^ 16 by positivity), Bool.or_eq_true, Bool.and_eq_true, decide_eq_true_iff, beq_iff_eq, Option.some.injEq,
    compare_lt_iff_lt, compare_gt_iff_gt, compare_eq_iff_eq]
  rw [le_iff_lt_or_eq, eq_comm (a := F.rnd (10 ^ 16))]

/-- **C96 (floats are not integers).** The text of a float that is not NaN or infinite has a decimal point or an exponent (or both), so that no integer has it. It has an exponent exactly if the magnitude is at least `1e16`, or below
`1e-4` but not zero (both constants as floats of the type). -/
theorem C96_float_form {F : FFmt} (s : Bool) (m : ℚ) (hm : F.Rep m) {st : DSty} {t : List Char} (h : Dbg.text st (.fin s m hm : Flt F) t) :
    ('.' ∈ t ∨ 'e' ∈ t) ∧ (∀ (τ : IntTy) (z : MInt τ) (st' : DSty), ¬ Dbg.text st' z t) ∧ ('e' ∈ t ↔ (m ≠ 0 ∧ m < F.rnd (1 / 10 ^ 4)) ∨ F.rnd (10 ^ 16) ≤ m) := by
  have hd : ∀ n k, k ≠ 0 → '.' ∈ decimalChars n k := by
    intro n k hk; rw [decimalChars, if_neg hk]; exact List.mem_append_right _ (.head _)
  have hne : ∀ n k, 'e' ∉ decimalChars n k := by
    intro n k h
    rcases decimalChars_mem h with h | h
    · revert h; decide
    · revert h; decide
  have hs : 'e' ∉ (if s then ['-'] else []) := by cases s <;> decide
  have key : ('.' ∈ t ∨ 'e' ∈ t) ∧ ('e' ∈ t ↔ Flt.dbgExp m hm = true) := by
    cases h
    rw [Flt.dbgChars]
    by_cases he : Flt.dbgExp m hm = true
    · rw [if_pos he]
      have : 'e' ∈ sciAll false (F.shortestDigits m).1 (F.shortestDigits m).2 := List.mem_append_right _ (.head _)
      exact ⟨.inr (List.mem_append_right _ this), fun _ => he, fun _ => List.mem_append_right _ this⟩
    · rw [if_neg he]
      have : ∃ n k, k ≠ 0 ∧ (if m = 0 then decimalChars 0 1 else if 0 ≤ (F.shortestDigits m).2 then decimalChars ((F.shortestDigits m).1 * 10 ^ (F.shortestDigits m).2.toNat * 10) 1
        else decimalChars (F.shortestDigits m).1 (-(F.shortestDigits m).2).toNat) = decimalChars n k := by
        split
        · exact ⟨_, _, by decide, rfl⟩
        · split
          · exact ⟨_, _, by decide, rfl⟩
          · exact ⟨_, _, by omega, rfl⟩
      obtain ⟨n, k, hk, e⟩ := this
      rw [e]
      refine ⟨.inl (List.mem_append_right _ (hd n k hk)), fun h => ?_, fun h => absurd h he⟩
      rcases List.mem_append.1 h with h | h
      · exact absurd h hs
      · exact absurd h (hne n k)
  refine ⟨key.1, fun τ z st' hz => ?_, key.2.trans (dbgExp_iff m hm)⟩
  have hc : ∀ c ∈ t, c = '-' ∨ c.isDigit = true := by
    cases hz
    intro c hc
    rcases List.mem_append.1 hc with hc | hc
    · split at hc
      · exact .inl (List.mem_singleton.1 hc)
      · cases hc
    · exact .inr (Nat.isDigit_of_mem_toDigits (by decide) (by decide) hc)
  rcases key.1 with hk | hk
  · exact absurd (hc _ hk) (by decide)
  · exact absurd (hc _ hk) (by decide)

/-- a category axis with two categories and a sparse histogram with two filled bins -/
def exDbgSparse : HashHistogram (UniformNoFlow (MInt .i32)) (MInt .i32) := ⟨⟨⟨2, MInt.lit 0, MInt.lit 2, MInt.lit 1⟩⟩, ⟨[(0, MInt.lit 5), (1, MInt.lit 7)]⟩⟩

/-- A sparse histogram may print two texts: the text of one and the same histogram may differ from run to run (and equal histograms may print different texts). -/
theorem C96_counterexample_sparse_order :
    Dbg.text none exDbgSparse "HashHistogram { axes: UniformNoFlow { axis: Uniform { num: 2, low: 0, high: 2, step: 1 } }, values: {0: 5, 1: 7} }".toList ∧
    Dbg.text none exDbgSparse "HashHistogram { axes: UniformNoFlow { axis: Uniform { num: 2, low: 0, high: 2, step: 1 } }, values: {1: 7, 0: 5} }".toList := by
  constructor
  · exact ⟨_, _, ⟨_, ⟨_, _, _, rfl, rfl, rfl, rfl⟩, rfl⟩, ⟨⟨[(0, MInt.lit 5), (1, MInt.lit 7)], .refl _⟩, _, .cons ⟨_, _, rfl, rfl, rfl⟩ (.cons ⟨_, _, rfl, rfl, rfl⟩ .nil), rfl⟩, by decide +kernel⟩
  · exact ⟨_, _, ⟨_, ⟨_, _, _, rfl, rfl, rfl, rfl⟩, rfl⟩, ⟨⟨[(1, MInt.lit 7), (0, MInt.lit 5)], .swap _ _ _⟩, _, .cons ⟨_, _, rfl, rfl, rfl⟩ (.cons ⟨_, _, rfl, rfl, rfl⟩ .nil), rfl⟩, by decide +kernel⟩

section
attribute [local instance] dbg64 numPEq
/-- Floats that are equal (`==`) may have different texts (`0.0` and `-0.0`), and floats with the same text may not be equal (NaN and NaN): of floats `==` and the debug text say different things. -/
theorem C96_counterexample_float_equal : (PEq.peq (Flt.zero false : F64) (Flt.zero true) = true ∧ ¬ SameText none (Flt.zero false : F64) (Flt.zero true)) ∧
    (PEq.peq (Flt.nan : F64) Flt.nan = false ∧ SameText none (Flt.nan : F64) Flt.nan) := by
  refine ⟨⟨by decide +kernel, ?_⟩, by decide +kernel, _, rfl, rfl⟩
  rintro ⟨s, h1, h2⟩
  exact absurd (h1.symm.trans h2) (by decide +kernel)
end
end NdHist
