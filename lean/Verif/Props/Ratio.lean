import Verif.Props.IntMean
import Verif.Props.Prog
import Verif.Props.Reduce
/-!
# C86: ratios of histograms
-/
namespace NdHist
open RNum

/-! ## Dividing filled histograms -/

section
variable [cfg : Cfg] {A V : Type} [Axis A] [PEq A] [ROps V] [RDefault V] {axes : A} {n : Nat} {covers : Axis.Interval A → Axis.Coordinate A → Prop}
  {dom : Axis.Coordinate A → Prop}

open Classical in
theorem op_filled (hf : FaithfulAxis axes n covers dom) (hrefl : PEq.peq axes axes = true) {h : VecHistogram A V} (hnew : VecHistogram.new axes = .ok h) (o : Op)
    (calls₁ calls₂ : List (Call V (Axis.Coordinate A))) (hd₁ : ∀ call ∈ calls₁, dom call.coord) (hd₂ : ∀ call ∈ calls₂, dom call.coord) :
    (∃ m items, (h.callAllCaught calls₁).opBorrow o (h.callAllCaught calls₂) = .ok (.ok m) ∧ m.iter = .ok items ∧ items.length = n ∧
      ∀ i it, items[i]? = some it → it.index = i ∧ Axis.bin axes i = .ok (some it.bin) ∧
        ROps.op o (filledWith (calls₁.filter fun call => covers it.bin call.coord) RDefault.dflt)
          (filledWith (calls₂.filter fun call => covers it.bin call.coord) RDefault.dflt) = .ok it.value) ∨
    (∃ p i b, (h.callAllCaught calls₁).opBorrow o (h.callAllCaught calls₂) = .error p ∧ i < n ∧ Axis.bin axes i = .ok (some b) ∧
      ROps.op o (filledWith (calls₁.filter fun call => covers b call.coord) RDefault.dflt)
          (filledWith (calls₂.filter fun call => covers b call.coord) RDefault.dflt) = .error p) := by
  obtain ⟨ok1, ax1, v1⟩ := C28_dense hf.lawful hnew calls₁
  obtain ⟨ok2, ax2, v2⟩ := C28_dense hf.lawful hnew calls₂
  have val1 : ∀ i b, i < n → Axis.bin axes i = .ok (some b) →
      (h.callAllCaught calls₁).valueAtIndex i = some (filledWith (calls₁.filter fun call => covers b call.coord) RDefault.dflt) := by
    intro i b hi hb
    rw [v1 i, if_pos hi, callsIn_eq_covers hf hd₁ hi hb]
  have val2 : ∀ i b, i < n → Axis.bin axes i = .ok (some b) →
      (h.callAllCaught calls₂).valueAtIndex i = some (filledWith (calls₂.filter fun call => covers b call.coord) RDefault.dflt) := by
    intro i b hi hb
    rw [v2 i, if_pos hi, callsIn_eq_covers hf hd₂ hi hb]
  rcases C33_binwise_dense o ok1 ok2 (by rw [ax1, ax2]; exact hrefl) with ⟨m, m1, m2, m3, m4⟩ | ⟨p, i, x, y, e1, e2, e3, e4⟩
  · left
    obtain ⟨items, i1, i2, i3, -⟩ := C38_iter m2
    refine ⟨m, items, m1, i1, i2, ?_⟩
    intro i it hi
    have hin : i < n := by rw [← i2]; exact (List.getElem?_eq_some_iff.1 hi).1
    obtain ⟨b, v, h1, h2, h3⟩ := i3 i hin
    rw [hi] at h1
    cases h1
    rw [m3, ax1] at h2
    refine ⟨rfl, h2, ?_⟩
    obtain ⟨x, y, z, q1, q2, q3, q4⟩ := m4 i hin
    rw [val1 i b hin h2] at q1
    rw [val2 i b hin h2] at q2
    rw [h3] at q4
    cases q1; cases q2; cases q4
    exact q3
  · right
    have hin : i < n := by
      have := (List.getElem?_eq_some_iff.1 (show (h.callAllCaught calls₁).values[i]? = some x from e2)).1
      rwa [ok1.size] at this
    obtain ⟨b, hb⟩ := hf.lawful.bin_some i hin
    rw [val1 i b hin hb] at e2
    rw [val2 i b hin hb] at e3
    cases e2; cases e3
    exact ⟨p, i, b, e1, hin, hb, e4⟩

open Classical in
theorem op_filled_sparse [LawfulROps V] (hf : FaithfulAxis axes n covers dom) (hrefl : PEq.peq axes axes = true) (o : Op)
    (calls₁ calls₂ : List (Call V (Axis.Coordinate A))) (hd₁ : ∀ call ∈ calls₁, dom call.coord) (hd₂ : ∀ call ∈ calls₂, dom call.coord)
    (hop : ∀ i b, i < n → Axis.bin axes i = .ok (some b) → (∃ call ∈ calls₁ ++ calls₂, covers b call.coord) →
      ∃ z, ROps.op o (filledWith (calls₁.filter fun call => covers b call.coord) (RDefault.dflt : V))
          (filledWith (calls₂.filter fun call => covers b call.coord) RDefault.dflt) = .ok z)
    (ko : HashHistogram.KeyOrder ((HashHistogram.new axes : HashHistogram A V).callAllCaught calls₁) ((HashHistogram.new axes).callAllCaught calls₂)) :
    ∃ m, ((HashHistogram.new axes : HashHistogram A V).callAllCaught calls₁).opBorrow o ((HashHistogram.new axes).callAllCaught calls₂) ko = .ok (.ok m) ∧
      ∀ ord : m.values.Order, ∃ items, m.iter ord = .ok items ∧ (items.map (·.index)).Nodup ∧
      (∀ it ∈ items, it.index < n ∧ Axis.bin axes it.index = .ok (some it.bin) ∧ (∃ call ∈ calls₁ ++ calls₂, covers it.bin call.coord) ∧
        ROps.op o (filledWith (calls₁.filter fun call => covers it.bin call.coord) RDefault.dflt)
          (filledWith (calls₂.filter fun call => covers it.bin call.coord) RDefault.dflt) = .ok it.value) ∧
      ∀ i b, i < n → Axis.bin axes i = .ok (some b) → (∃ call ∈ calls₁ ++ calls₂, covers b call.coord) → ∃ it ∈ items, it.index = i ∧ it.bin = b := by
  obtain ⟨ok1, -, hkeys1, -⟩ := C32_keys (V := V) hf.lawful calls₁
  obtain ⟨ok2, -, hkeys2, -⟩ := C32_keys (V := V) hf.lawful calls₂
  have ax1 : ((HashHistogram.new axes : HashHistogram A V).callAllCaught calls₁).axes = axes := by rw [HashHistogram.callAllCaught_axes]; rfl
  have ax2 : ((HashHistogram.new axes : HashHistogram A V).callAllCaught calls₂).axes = axes := by rw [HashHistogram.callAllCaught_axes]; rfl
  have v1 := C28_sparse (V := V) axes calls₁
  have v2 := C28_sparse (V := V) axes calls₂
  have key : ∀ (calls : List (Call V (Axis.Coordinate A))) (i : Nat), (∀ call ∈ calls, dom call.coord) → ∀ b, i < n → Axis.bin axes i = .ok (some b) →
      (callsIn axes i calls ≠ [] ↔ ∃ call ∈ calls, covers b call.coord) ∧
      (((HashHistogram.new axes : HashHistogram A V).callAllCaught calls).valueAtIndex i).getD RDefault.dflt =
        filledWith (calls.filter fun call => covers b call.coord) RDefault.dflt := by
    intro calls i hd b hi hb
    have e := callsIn_eq_covers hf hd hi hb
    constructor
    · rw [e, Ne, List.filter_eq_nil_iff]; simp
    · rw [C28_sparse (V := V) axes calls i, ← e]
      split
      · next h => rw [h]; rfl
      · rfl
  have lt1 : ∀ i, ((HashHistogram.new axes : HashHistogram A V).callAllCaught calls₁).valueAtIndex i ≠ none → i < n := fun i h => by
    obtain ⟨v, hv⟩ := Option.ne_none_iff_exists'.1 h
    exact ok1.valid _ ((HMap.get_isSome _ _).1 ⟨_, hv⟩)
  have lt2 : ∀ i, ((HashHistogram.new axes : HashHistogram A V).callAllCaught calls₂).valueAtIndex i ≠ none → i < n := fun i h => by
    obtain ⟨v, hv⟩ := Option.ne_none_iff_exists'.1 h
    exact ok2.valid _ ((HMap.get_isSome _ _).1 ⟨_, hv⟩)
  have some1 : ∀ (calls : List (Call V (Axis.Coordinate A))) i, ((HashHistogram.new axes : HashHistogram A V).callAllCaught calls).valueAtIndex i ≠ none ↔ callsIn axes i calls ≠ [] := by
    intro calls i
    rw [C28_sparse (V := V) axes calls i]
    split <;> simp_all
  have hax : PEq.peq ((HashHistogram.new axes : HashHistogram A V).callAllCaught calls₁).axes ((HashHistogram.new axes : HashHistogram A V).callAllCaught calls₂).axes = true := by
    rw [ax1, ax2]; exact hrefl
  have hret : ∃ m, ((HashHistogram.new axes : HashHistogram A V).callAllCaught calls₁).opBorrow o ((HashHistogram.new axes).callAllCaught calls₂) ko = .ok (.ok m) := by
    rw [(C35_sparse_exact o ok1 ok2 hax ko ⟨_, List.Perm.refl _⟩).1]
    intro i hi
    have hlt : i < n := hi.elim (lt1 i) (lt2 i)
    obtain ⟨b, hb⟩ := hf.lawful.bin_some i hlt
    rw [(key calls₁ i hd₁ b hlt hb).2, (key calls₂ i hd₂ b hlt hb).2]
    refine hop i b hlt hb ?_
    rcases hi with h | h
    · obtain ⟨c, c1, c2⟩ := (key calls₁ i hd₁ b hlt hb).1.1 ((some1 _ _).1 h)
      exact ⟨c, List.mem_append_left _ c1, c2⟩
    · obtain ⟨c, c1, c2⟩ := (key calls₂ i hd₂ b hlt hb).1.1 ((some1 _ _).1 h)
      exact ⟨c, List.mem_append_right _ c1, c2⟩
  obtain ⟨m, hm⟩ := hret
  refine ⟨m, hm, fun ord => ?_⟩
  obtain ⟨mok, max, mval⟩ := C33_binwise_sparse o ok1 ok2 ko hm
  rw [ax1] at max
  obtain ⟨items, i1, i2, i3, i4, -⟩ := C32_iter mok ord
  have mv : ∀ i b, i < n → Axis.bin axes i = .ok (some b) → (m.valueAtIndex i ≠ none ↔ ∃ call ∈ calls₁ ++ calls₂, covers b call.coord) ∧
      ∀ z, m.valueAtIndex i = some z → ROps.op o (filledWith (calls₁.filter fun call => covers b call.coord) RDefault.dflt)
          (filledWith (calls₂.filter fun call => covers b call.coord) RDefault.dflt) = .ok z := by
    intro i b hi hb
    have := mval i
    rw [← (key calls₁ i hd₁ b hi hb).2, ← (key calls₂ i hd₂ b hi hb).2]
    have ex : (∃ call ∈ calls₁ ++ calls₂, covers b call.coord) ↔
        (((HashHistogram.new axes : HashHistogram A V).callAllCaught calls₁).valueAtIndex i ≠ none ∨ ((HashHistogram.new axes : HashHistogram A V).callAllCaught calls₂).valueAtIndex i ≠ none) := by
      rw [some1, some1, (key calls₁ i hd₁ b hi hb).1, (key calls₂ i hd₂ b hi hb).1]
      simp only [List.mem_append]
      constructor
      · rintro ⟨c, h | h, h'⟩
        · exact .inl ⟨c, h, h'⟩
        · exact .inr ⟨c, h, h'⟩
      · rintro (⟨c, h, h'⟩ | ⟨c, h, h'⟩)
        · exact ⟨c, .inl h, h'⟩
        · exact ⟨c, .inr h, h'⟩
    rw [ex]
    generalize ((HashHistogram.new axes : HashHistogram A V).callAllCaught calls₁).valueAtIndex i = x at this
    generalize ((HashHistogram.new axes : HashHistogram A V).callAllCaught calls₂).valueAtIndex i = y at this
    generalize m.valueAtIndex i = z at this
    clear ex
    rcases x with _ | x <;> rcases y with _ | y
    · simp only [HashHistogram.merged, Except.ok.injEq] at this
      subst this; simp
    all_goals
      simp only [HashHistogram.merged] at this
      revert this
      generalize (ROps.op o (Option.getD (_ : Option V) RDefault.dflt) _ : Res V) = q
      intro this
      cases q with
      | error => cases this
      | ok q =>
        simp only [Except.map, Except.ok.injEq] at this
        subst this; simp
  refine ⟨items, i1, i2, ?_, ?_⟩
  · intro it hit
    obtain ⟨q1, q2⟩ := i3 it hit
    rw [max] at q2
    have hlt : it.index < n := mok.valid _ ((HMap.get_isSome _ _).1 ⟨_, q1⟩)
    obtain ⟨k1, k2⟩ := mv _ _ hlt q2
    exact ⟨hlt, q2, k1.1 (by rw [q1]; simp), k2 _ q1⟩
  · intro i b hi hb hc
    obtain ⟨k1, -⟩ := mv i b hi hb
    obtain ⟨v, hv⟩ := Option.ne_none_iff_exists'.1 (k1.2 hc)
    obtain ⟨it, h1, rfl, -⟩ := i4 i v hv
    have := (i3 it h1).2
    rw [max, hb] at this
    exact ⟨it, h1, rfl, by simpa using this.symm⟩
end

/-! ## Floats -/

section
variable {F : FFmt}

theorem FFmt.rep_small (F : FFmt) (hF : F.emin ≤ -F.p) : F.Rep (pow2 (-F.p)) ∧ F.Rep (1 - pow2 (-F.p)) := by
  have hp := F.p_ge
  have hE := F.emax_ge
  have h1 : (1 : ℕ) ≤ 2 ^ F.p := Nat.one_le_two_pow
  refine ⟨⟨1, -F.p, by simp, Nat.one_lt_two_pow (by omega), by unfold FFmt.qmin; omega, by omega⟩, ⟨2 ^ F.p - 1, -F.p, ?_, by omega, by unfold FFmt.qmin; omega, by omega⟩⟩
  have e : ((2 ^ F.p : ℕ) : ℚ) * pow2 (-F.p) = 1 := by
    rw [← pow2_nat, ← pow2_add, add_neg_cancel, pow2_zero]
  rw [Nat.cast_sub h1, sub_mul, e, Nat.cast_one, one_mul]

/-- the ratio of two counts -/
theorem ratio_counts (hF : F.emin ≤ -F.p) {x y : Flt F} {K N : ℕ} (hK : K ≤ N) (hN : N ≤ 2 ^ F.p) (hx : x.isFin) (hxv : x.val = K) (hy : y.isFin) (hyv : y.val = N) :
    (N = 0 → Flt.div x y = .nan) ∧
    (0 < N → Closest ((K : ℚ) / N) (Flt.div x y) ∧ (0 ≤ (Flt.div x y).val ∧ (Flt.div x y).val ≤ 1) ∧ ((Flt.div x y).val = 0 ↔ K = 0) ∧ ((Flt.div x y).val = 1 ↔ K = N) ∧
      |(Flt.div x y).val - (K : ℚ) / N| ≤ (K : ℚ) / N * F.u) := by
  constructor
  · rintro rfl
    obtain rfl : K = 0 := by omega
    exact Flt.div_zero_zero hx (by simpa using hxv) hy (by simpa using hyv)
  · intro hpos
    have hNq : (0 : ℚ) < N := by exact_mod_cast hpos
    have hr := Flt.div_rounds hx hy (by rw [hyv]; exact hNq.ne')
    rw [hxv, hyv] at hr
    have h0 : (0 : ℚ) ≤ (K : ℚ) / N := by positivity
    have h1 : (K : ℚ) / N ≤ 1 := by rw [div_le_one hNq]; exact_mod_cast hK
    have m1 : (1 : ℚ) ≤ F.maxFin := by
      have := (F.rep_nat (n := 1) Nat.one_le_two_pow).le_maxFin; simpa using this
    have hab : |(K : ℚ) / N| ≤ F.maxFin := by rw [abs_of_nonneg h0]; exact h1.trans m1
    obtain ⟨f1, f2⟩ := hr.fin_of hab
    obtain ⟨r1, r2⟩ := F.rep_small hF
    have p0 := pow2_pos (-(F.p : ℤ))
    have e : ((2 ^ F.p : ℕ) : ℚ) * pow2 (-F.p) = 1 := by
      rw [← pow2_nat, ← pow2_add, add_neg_cancel, pow2_zero]
    have hNp : (N : ℚ) * pow2 (-F.p) ≤ 1 := by
      rw [← e]; exact mul_le_mul_of_nonneg_right (by exact_mod_cast hN) p0.le
    have rs1 : F.rs 1 = 1 := F.rs_of_rep (by
      have := (F.rep_nat (n := 1) Nat.one_le_two_pow).repU; simpa using this)
    have lo : 0 < K → pow2 (-F.p) ≤ (K : ℚ) / N := by
      intro hk
      rw [le_div_iff₀ hNq]
      have : (1 : ℚ) ≤ K := by exact_mod_cast hk
      linarith
    have small : pow2 (-(F.p : ℤ)) ≤ 1 := by
      rw [← pow2_zero]; exact pow2_le.2 (by omega)
    rw [f2]
    refine ⟨hr.closest hab, ⟨F.rs_pos_le h0, by rw [← rs1]; exact F.rs_mono h1⟩, ⟨fun h => ?_, ?_⟩, ⟨fun h => ?_, ?_⟩, ?_⟩
    · by_contra hk
      have := F.rs_mono (lo (Nat.pos_of_ne_zero hk))
      rw [h, F.rs_of_rep (by rw [abs_of_pos p0]; exact r1.repU)] at this
      linarith
    · rintro rfl; simp [F.rs_zero]
    · by_contra hk
      have hlt : K + 1 ≤ N := by omega
      have : (K : ℚ) / N ≤ 1 - pow2 (-F.p) := by
        rw [div_le_iff₀ hNq, sub_mul, one_mul]
        have : (K : ℚ) + 1 ≤ N := by exact_mod_cast hlt
        linarith
      have := F.rs_mono this
      rw [h, F.rs_of_rep (by rw [abs_of_nonneg (by linarith)]; exact r2.repU)] at this
      linarith
    · rintro rfl; rw [div_self hNq.ne', rs1]
    · have := F.rs_rel' (x := (K : ℚ) / N) (by
        rcases Nat.eq_zero_or_pos K with rfl | hk
        · left; simp
        · right; rw [abs_of_nonneg h0]; exact (pow2_le.2 hF).trans (lo hk))
      rwa [abs_of_nonneg h0] at this

/-! ### Sums of non-negative weights -/

variable [cfg : Cfg]

theorem Flt.ge_zero_of_fin {x : Flt F} (h : x.isFin) (h0 : 0 ≤ x.val) : POrd.ge x (Flt.zero false) = true := by
  rw [Flt.ge_fin (b := Flt.zero false) h trivial]
  have : (Flt.zero false : Flt F).val = 0 := rfl
  rw [this]; simpa using h0

theorem Flt.inf_ge {x : Flt F} (h : POrd.ge x (Flt.zero false) = true) : POrd.ge (Flt.inf false : Flt F) x = true := by
  rcases Flt.ge_zero_cases h with ⟨h1, h2⟩ | rfl
  · cases x with
    | nan => exact h1.elim
    | inf => exact h1.elim
    | fin s m hm => simp [POrd.ge, POrd.pcmp, Flt.pcmp]
  · simp [POrd.ge, POrd.pcmp, Flt.pcmp]

theorem Flt.ge_trans' {a b c : Flt F} (h1 : POrd.ge a b = true) (h2 : POrd.ge b c = true) : POrd.ge a c = true := by
  rw [LawfulPOrd.ge_iff] at h1 h2 ⊢
  obtain ⟨x, y, e1, e2, e3⟩ := h1
  obtain ⟨y', z, g1, g2, g3⟩ := h2
  rw [e2] at g1
  cases g1
  exact ⟨x, z, e1, g2, g3.trans e3⟩

/-- finite and not negative, or infinite: the cases of an ordered pair -/
theorem Flt.ge_cases {a b : Flt F} (hb : POrd.ge b (Flt.zero false) = true) (h : POrd.ge a b = true) :
    (a = .inf false) ∨ (a.isFin ∧ b.isFin ∧ 0 ≤ b.val ∧ b.val ≤ a.val) := by
  rcases Flt.ge_zero_cases (Flt.ge_trans' h hb) with ⟨a1, a2⟩ | rfl
  · rcases Flt.ge_zero_cases hb with ⟨b1, b2⟩ | rfl
    · rw [Flt.ge_fin a1 b1] at h
      exact .inr ⟨a1, b1, b2, by simpa using h⟩
    · cases a with
      | nan => exact a1.elim
      | inf => exact a1.elim
      | fin s m hm => simp [POrd.ge, POrd.pcmp, Flt.pcmp] at h
  · exact .inl rfl

theorem Flt.inf_add_ge {w : Flt F} (h : POrd.ge w (Flt.zero false) = true) : Flt.add (.inf false) w = .inf false ∧ Flt.add w (.inf false) = .inf false := by
  rcases Flt.ge_zero_cases h with ⟨w1, w2⟩ | rfl
  · cases w with
    | nan => exact w1.elim
    | inf => exact w1.elim
    | fin s m hm => exact ⟨rfl, rfl⟩
  · exact ⟨rfl, rfl⟩

/-- rounded addition is monotone -/
theorem Flt.add_mono {a b w : Flt F} (hb : POrd.ge b (Flt.zero false) = true) (h : POrd.ge a b = true) (hw : POrd.ge w (Flt.zero false) = true) :
    POrd.ge (Flt.add a w) (Flt.add b w) = true := by
  have hbw := (Flt.add_ge hb hw).2
  rcases Flt.ge_cases hb h with rfl | ⟨a1, b1, b2, h3⟩
  · rw [(Flt.inf_add_ge hw).1]; exact Flt.inf_ge hbw
  · rcases Flt.ge_zero_cases hw with ⟨w1, w2⟩ | rfl
    · have ra := Flt.add_rounds a1 w1
      have rb := Flt.add_rounds b1 w1
      generalize Flt.add a w = x at ra
      generalize Flt.add b w = y at rb hbw
      cases ra with
      | inf h' => rw [decide_eq_false (not_lt.2 (by linarith))]; exact Flt.inf_ge hbw
      | fin h1 h2 =>
        cases rb with
        | fin g1 g2 =>
          rw [Flt.ge_fin h1 g1, h2, g2]
          simpa using F.rs_mono (by linarith)
        | inf g =>
          exfalso
          have m := F.rs_mono (show b.val + w.val ≤ a.val + w.val by linarith)
          have p := F.rs_pos_le (show 0 ≤ b.val + w.val by linarith)
          rw [abs_of_nonneg p] at g
          have := Flt.abs_val_le x
          rw [h2, abs_of_nonneg (p.trans m)] at this
          linarith
    · rw [(Flt.inf_add_ge (Flt.ge_zero_of_fin a1 (b2.trans h3))).2]; exact Flt.inf_ge hbw

theorem fltAdd_ge {C : Type} {cw : C × Option (Flt F)} (hw : ∀ w, cw.2 = some w → POrd.ge w (Flt.zero false) = true) : POrd.ge (fltAdd cw) (Flt.zero false) = true := by
  obtain ⟨c, _ | w⟩ := cw
  · obtain ⟨o1, o2⟩ := Flt.ofNat_spec (F := F) (n := 1) (Nat.one_le_two_pow)
    rw [Nat.cast_one] at o1 o2
    exact Flt.ge_zero_of_fin o1 (by show 0 ≤ (Flt.ofRat 1 : Flt F).val; rw [o2]; norm_num)
  · exact hw w rfl

/-- the rounded sum of a part of the summands is at most the rounded sum of all -/
theorem foldl_sublist_ge {C : Type} {part all : List (C × Option (Flt F))} (hs : part.Sublist all)
    (hw : ∀ cw ∈ all, ∀ w, cw.2 = some w → POrd.ge w (Flt.zero false) = true) {v v' : Flt F} (hv : POrd.ge v' (Flt.zero false) = true) (h : POrd.ge v v' = true) :
    POrd.ge (all.foldl (fun v cw => Flt.add v (fltAdd cw)) v) (part.foldl (fun v cw => Flt.add v (fltAdd cw)) v') = true := by
  induction hs generalizing v v' with
  | slnil => exact h
  | cons a _ ih =>
    have ha := fltAdd_ge (hw a (List.mem_cons_self ..))
    exact ih (fun cw hm => hw cw (List.mem_cons_of_mem _ hm)) hv (Flt.ge_trans' (Flt.add_ge (Flt.ge_trans' h hv) ha).1 h)
  | cons_cons a _ ih =>
    have ha := fltAdd_ge (hw a (List.mem_cons_self ..))
    exact ih (fun cw hm => hw cw (List.mem_cons_of_mem _ hm)) (Flt.add_ge hv ha).2 (Flt.add_mono hv h ha)

/-- the ratio of a part to a whole -/
theorem ratio_part {x y : Flt F} (hx : POrd.ge x (Flt.zero false) = true) (h : POrd.ge y x = true) :
    (Flt.div x y = .nan ↔ (y.isFin ∧ y.val = 0) ∨ x = .inf false) ∧ (Flt.div x y ≠ .nan → (Flt.div x y).isFin ∧ 0 ≤ (Flt.div x y).val ∧ (Flt.div x y).val ≤ 1) := by
  rcases Flt.ge_cases hx h with rfl | ⟨y1, x1, x2, h3⟩
  · rcases Flt.ge_zero_cases hx with ⟨x1, x2⟩ | rfl
    · cases x with
      | nan => exact x1.elim
      | inf => exact x1.elim
      | fin s m hm =>
        refine ⟨⟨fun h => (by cases h), ?_⟩, fun _ => ?_⟩
        · rintro (⟨h, -⟩ | h)
          · exact h.elim
          · cases h
        · have : (Flt.div (.fin s m hm) (.inf false) : Flt F).val = 0 := by cases s <;> simp [Flt.div, Flt.zero, Flt.val, Flt.sval]
          exact ⟨trivial, by rw [this], by rw [this]; norm_num⟩
    · exact ⟨⟨fun _ => .inr rfl, fun _ => rfl⟩, fun h => absurd rfl h⟩
  · by_cases h0 : y.val = 0
    · have := Flt.div_zero_zero x1 (by linarith) y1 h0
      exact ⟨⟨fun _ => .inl ⟨y1, h0⟩, fun _ => this⟩, fun h => absurd this h⟩
    · have hy : 0 < y.val := lt_of_le_of_ne (x2.trans h3) (Ne.symm h0)
      have hr := Flt.div_rounds x1 y1 h0
      have q0 : 0 ≤ x.val / y.val := div_nonneg x2 hy.le
      have q1 : x.val / y.val ≤ 1 := (div_le_one hy).2 h3
      have m1 : (1 : ℚ) ≤ F.maxFin := by
        have := (F.rep_nat (n := 1) Nat.one_le_two_pow).le_maxFin; simpa using this
      have rs1 : F.rs 1 = 1 := F.rs_of_rep (by
        have := (F.rep_nat (n := 1) Nat.one_le_two_pow).repU; simpa using this)
      obtain ⟨f1, f2⟩ := hr.fin_of (by rw [abs_of_nonneg q0]; linarith)
      refine ⟨⟨fun h => absurd h hr.not_nan, ?_⟩, fun _ => ⟨f1, by rw [f2]; exact F.rs_pos_le q0, by rw [f2, ← rs1]; exact F.rs_mono q1⟩⟩
      rintro (⟨-, h⟩ | rfl)
      · exact absurd h h0
      · exact x1.elim
end

/-! ## The property -/

section
variable [cfg : Cfg] {F : FFmt} {A : Type} [Axis A] [PEq A] {axes : A} {n : Nat} {covers : Axis.Interval A → Axis.Coordinate A → Prop} {dom : Axis.Coordinate A → Prop}

open Classical in
theorem count_flt {C B : Type} {covers : B → C → Prop} (cs : List C) (b : B) (hs : cs.length ≤ 2 ^ F.p) :
    (filledWith ((cs.map Call.fill : List (Call (Flt F) C)).filter fun call => covers b call.coord) RDefault.dflt).isFin ∧
    (filledWith ((cs.map Call.fill : List (Call (Flt F) C)).filter fun call => covers b call.coord) RDefault.dflt).val = (cs.countP fun c => covers b c : ℕ) := by
  have e : ((cs.map Call.fill : List (Call (Flt F) C)).filter fun call => covers b call.coord) = (cs.filter fun c => covers b c).map Call.fill := by
    rw [List.filter_map]; rfl
  obtain ⟨f1, f2⟩ := filledWith_fill_float (F := F) (cs.filter fun c => covers b c) RDefault.dflt (k := 0) (by trivial) (by rfl) (Nat.zero_le _)
  rw [zero_add, ← List.countP_eq_length_filter, min_eq_left ((List.countP_le_length).trans hs)] at f2
  rw [e]
  exact ⟨f1, f2⟩

omit cfg in
theorem fill_dom {C V : Type} [Fill V] {cs : List C} {dom : C → Prop} (hd : ∀ c ∈ cs, dom c) : ∀ call ∈ (cs.map Call.fill : List (Call V C)), dom call.coord := by
  intro call hc
  obtain ⟨c, h1, rfl⟩ := List.mem_map.1 hc
  exact hd c h1

theorem fill_total_flt {C : Type} {cs : List C} : ∀ call ∈ (cs.map Call.fill : List (Call (Flt F) C)), ∀ v, (call.on v).2 = none := by
  intro call hc v
  obtain ⟨c, h1, rfl⟩ := List.mem_map.1 hc
  rfl

/-- The ratio `q` of `K` passing entries of `N` entries: NaN if there are none, otherwise the float closest to `K / N`, in `[0, 1]`, being 0 exactly if none and 1 exactly if all of
them pass. -/
def IsEfficiency (K N : ℕ) (q : Flt F) : Prop :=
  (N = 0 → q = .nan) ∧ (0 < N → Closest ((K : ℚ) / N) q ∧ (0 ≤ q.val ∧ q.val ≤ 1) ∧ (q.val = 0 ↔ K = 0) ∧ (q.val = 1 ↔ K = N))

open Classical in
/-- **C86 (efficiencies).** Fill one histogram of floats with coordinates and a second one of the same axes with some of them, with `fill`, at most `2^p` in total. `&second / &first`
has in every bin the float closest to the fraction of the bin's coordinates that the second one got, and NaN in the bins without coordinates. -/
theorem C86_counts (hF : F.emin ≤ -F.p) (hf : FaithfulAxis axes n covers dom) (hrefl : PEq.peq axes axes = true) {h : VecHistogram A (Flt F)} (hnew : VecHistogram.new axes = .ok h)
    (all passed : List (Axis.Coordinate A)) (hsub : passed.Sublist all) (hd : ∀ c ∈ all, dom c) (hsize : all.length ≤ 2 ^ F.p) :
    ∃ t p m items, h.callAll (all.map .fill) = (t, none) ∧ h.callAll (passed.map .fill) = (p, none) ∧ p.opBorrow .div t = .ok (.ok m) ∧
      m.iter = .ok items ∧ items.length = n ∧ ∀ i it, items[i]? = some it → it.index = i ∧ Axis.bin axes i = .ok (some it.bin) ∧
        IsEfficiency (passed.countP fun c => covers it.bin c) (all.countP fun c => covers it.bin c) it.value := by
  have hd1 := fill_dom (V := Flt F) (fun c hc => hd c (hsub.subset hc))
  have hd2 := fill_dom (V := Flt F) hd
  rcases op_filled hf hrefl hnew .div (passed.map .fill) (all.map .fill) hd1 hd2 with ⟨m, items, m1, m2, m3, m4⟩ | ⟨p, i, b, -, -, -, e⟩
  · refine ⟨_, _, m, items, callAll_total hf hnew hd2 fill_total_flt, callAll_total hf hnew hd1 fill_total_flt, m1, m2, m3, ?_⟩
    intro i it hi
    obtain ⟨k1, k2, k3⟩ := m4 i it hi
    refine ⟨k1, k2, ?_⟩
    obtain ⟨x1, x2⟩ := count_flt (F := F) (covers := covers) passed it.bin (hsub.length_le.trans hsize)
    obtain ⟨y1, y2⟩ := count_flt (F := F) (covers := covers) all it.bin hsize
    have e := Except.ok.inj k3
    obtain ⟨q1, q2⟩ := ratio_counts hF (hsub.countP_le) ((List.countP_le_length).trans hsize) x1 x2 y1 y2
    rw [e] at q1 q2
    exact ⟨q1, fun hp => ⟨(q2 hp).1, (q2 hp).2.1, (q2 hp).2.2.1, (q2 hp).2.2.2.1⟩⟩
  · cases e

open Classical in
/-- **C86 (sparse histograms).** For sparse histograms the same, but the ratio has only the bins with coordinates, so there are no NaNs. -/
theorem C86_counts_sparse (hF : F.emin ≤ -F.p) (hf : FaithfulAxis axes n covers dom) (hrefl : PEq.peq axes axes = true)
    (all passed : List (Axis.Coordinate A)) (hsub : passed.Sublist all) (hd : ∀ c ∈ all, dom c) (hsize : all.length ≤ 2 ^ F.p) :
    ∃ t p, (HashHistogram.new axes : HashHistogram A (Flt F)).callAll (all.map .fill) = (t, none) ∧ (HashHistogram.new axes).callAll (passed.map .fill) = (p, none) ∧
      ∀ ko : HashHistogram.KeyOrder p t, ∃ m, p.opBorrow .div t ko = .ok (.ok m) ∧ ∀ o : m.values.Order, ∃ items, m.iter o = .ok items ∧ (items.map (·.index)).Nodup ∧
        (∀ it ∈ items, it.index < n ∧ Axis.bin axes it.index = .ok (some it.bin) ∧ (∃ c ∈ all, covers it.bin c) ∧
          IsEfficiency (passed.countP fun c => covers it.bin c) (all.countP fun c => covers it.bin c) it.value) ∧
        ∀ i b, i < n → Axis.bin axes i = .ok (some b) → (∃ c ∈ all, covers b c) → ∃ it ∈ items, it.index = i ∧ it.bin = b := by
  have hd1 := fill_dom (V := Flt F) (fun c hc => hd c (hsub.subset hc))
  have hd2 := fill_dom (V := Flt F) hd
  have ex : ∀ b : Axis.Interval A, (∃ call ∈ (passed.map .fill ++ all.map .fill : List (Call (Flt F) (Axis.Coordinate A))), covers b call.coord) ↔ ∃ c ∈ all, covers b c := by
    intro b
    constructor
    · rintro ⟨call, hc, hb⟩
      rcases List.mem_append.1 hc with hc | hc <;> obtain ⟨c, h1, rfl⟩ := List.mem_map.1 hc
      · exact ⟨c, hsub.subset h1, hb⟩
      · exact ⟨c, h1, hb⟩
    · rintro ⟨c, h1, h2⟩
      exact ⟨.fill c, List.mem_append_right _ (List.mem_map_of_mem h1), h2⟩
  refine ⟨_, _, callAll_total_sparse hf hd2 fill_total_flt, callAll_total_sparse hf hd1 fill_total_flt, fun ko => ?_⟩
  obtain ⟨m, m1, m2⟩ := op_filled_sparse hf hrefl .div (passed.map .fill) (all.map .fill) hd1 hd2 (fun _ _ _ _ _ => ⟨_, rfl⟩) ko
  refine ⟨m, m1, fun o => ?_⟩
  obtain ⟨items, i1, i2, i3, i4⟩ := m2 o
  refine ⟨items, i1, i2, ?_, fun i b hi hb hc => i4 i b hi hb ((ex b).2 hc)⟩
  intro it hit
  obtain ⟨k1, k2, k3, k4⟩ := i3 it hit
  refine ⟨k1, k2, (ex _).1 k3, ?_⟩
  obtain ⟨x1, x2⟩ := count_flt (F := F) (covers := covers) passed it.bin (hsub.length_le.trans hsize)
  obtain ⟨y1, y2⟩ := count_flt (F := F) (covers := covers) all it.bin hsize
  have e := Except.ok.inj k4
  obtain ⟨q1, q2⟩ := ratio_counts hF (hsub.countP_le) ((List.countP_le_length).trans hsize) x1 x2 y1 y2
  rw [e] at q1 q2
  exact ⟨q1, fun hp => ⟨(q2 hp).1, (q2 hp).2.1, (q2 hp).2.2.1, (q2 hp).2.2.2.1⟩⟩

open Classical in
/-- **C86 (weights).** With weights that are not negative (infinity included), and any number of fills: whatever the roundings, the part of a bin is at most its whole, and their ratio is a number
in `[0, 1]`, unless the whole is 0 or the part is infinite: then it is NaN. -/
theorem C86_weighted (hf : FaithfulAxis axes n covers dom) (hrefl : PEq.peq axes axes = true) {h : VecHistogram A (Flt F)} (hnew : VecHistogram.new axes = .ok h)
    (all passed : List (Axis.Coordinate A × Option (Flt F))) (hsub : passed.Sublist all) (hd : ∀ cw ∈ all, dom cw.1)
    (hw : ∀ cw ∈ all, ∀ w, cw.2 = some w → POrd.ge w (Flt.zero false) = true) :
    ∃ t p m items, h.callAll (numCalls all) = (t, none) ∧ h.callAll (numCalls passed) = (p, none) ∧ p.opBorrow .div t = .ok (.ok m) ∧
      m.iter = .ok items ∧ items.length = n ∧ ∀ i it, items[i]? = some it → it.index = i ∧ Axis.bin axes i = .ok (some it.bin) ∧
        ∃ x y, p.valueAtIndex i = some x ∧ t.valueAtIndex i = some y ∧ POrd.ge x (Flt.zero false) = true ∧ POrd.ge y x = true ∧
          (it.value = .nan ↔ (y.isFin ∧ y.val = 0) ∨ x = .inf false) ∧ (it.value ≠ .nan → it.value.isFin ∧ 0 ≤ it.value.val ∧ it.value.val ≤ 1) := by
  have hd1 := numCalls_dom (hist := passed) (p := dom) (fun c hc => hd c (hsub.subset hc))
  have hd2 := numCalls_dom (hist := all) (p := dom) hd
  rcases op_filled hf hrefl hnew .div (numCalls passed) (numCalls all) hd1 hd2 with ⟨m, items, m1, m2, m3, m4⟩ | ⟨p, i, b, -, -, -, e⟩
  · refine ⟨_, _, m, items, callAll_total hf hnew hd2 numCalls_total, callAll_total hf hnew hd1 numCalls_total, m1, m2, m3, ?_⟩
    intro i it hi
    obtain ⟨k1, k2, k3⟩ := m4 i it hi
    have hin : i < n := by rw [← m3]; exact (List.getElem?_eq_some_iff.1 hi).1
    obtain ⟨-, -, v1⟩ := C28_dense hf.lawful hnew (numCalls passed)
    obtain ⟨-, -, v2⟩ := C28_dense hf.lawful hnew (numCalls all)
    refine ⟨k1, k2, _, _, by rw [v1 i, if_pos hin, callsIn_eq_covers hf hd1 hin k2], by rw [v2 i, if_pos hin, callsIn_eq_covers hf hd2 hin k2], ?_⟩
    have e := Except.ok.inj k3
    rw [← e]
    rw [numCalls_coord _ (fun c => decide (covers it.bin c)), numCalls_coord _ (fun c => decide (covers it.bin c)), filledWith_flt, filledWith_flt]
    have h0 : POrd.ge (RDefault.dflt : Flt F) (Flt.zero false) = true := Flt.ge_zero_of_fin (x := Flt.zero false) trivial le_rfl
    have hs := hsub.filter fun cw => decide (covers it.bin cw.1)
    have g1 := (foldl_ge (passed.filter fun cw => decide (covers it.bin cw.1)) (fun cw hc => hw cw (hsub.subset (List.mem_of_mem_filter hc))) h0).2
    have g2 := foldl_sublist_ge hs (fun cw hc => hw cw (List.mem_of_mem_filter hc)) h0 h0
    exact ⟨g1, g2, ratio_part g1 g2⟩
  · cases e

/-! ### Integers -/

open Classical in
omit [PEq A] in
theorem count_mint {τ : IntTy} {C B : Type} {covers : B → C → Prop} (cs : List C) (b : B) (hs : (cs.length : ℤ) ≤ τ.max) :
    (filledWith ((cs.map Call.fill : List (Call (MInt τ) C)).filter fun call => covers b call.coord) RDefault.dflt).val = (cs.countP fun c => covers b c : ℕ) := by
  have e : ((cs.map Call.fill : List (Call (MInt τ) C)).filter fun call => covers b call.coord) = (cs.filter fun c => covers b c).map Call.fill := by
    rw [List.filter_map]; rfl
  have hle := List.length_filter_le (fun c => decide (covers b c)) cs
  have h0 : (RDefault.dflt : MInt τ).val = 0 := rfl
  rw [e, filledWith_fill_int _ _ (by rw [h0]; omega), h0, zero_add, List.countP_eq_length_filter]

theorem ratio_mint {τ : IntTy} {x y : MInt τ} {K N : ℕ} (hK : K ≤ N) (hx : x.val = K) (hy : y.val = N) :
    (N = 0 → @RNum.div (MInt τ) cfg _ x y = .error .divZero) ∧ (0 < N → ∃ z, @RNum.div (MInt τ) cfg _ x y = .ok z ∧ z.val = if K = N then 1 else 0) := by
  have hd : @RNum.div (MInt τ) cfg _ x y = if y.val = 0 then .error .divZero else MInt.arithDiv (x.val.tdiv y.val) := rfl
  constructor
  · rintro rfl
    rw [hd, if_pos (by rw [hy]; rfl)]
  · intro hN
    have hq : x.val.tdiv y.val = if K = N then 1 else 0 := by
      rw [hx, hy]
      split
      · next h => subst h; exact Int.tdiv_self (by omega)
      · exact Int.tdiv_eq_zero_of_lt (by omega) (by omega)
    have hmax : (if K = N then (1 : ℤ) else 0) ≤ τ.max := by
      have := y.le_max
      split <;> omega
    have hmin : τ.min ≤ (if K = N then (1 : ℤ) else 0) := by
      have := τ.min_le_zero
      split <;> omega
    refine ⟨⟨_, hmin, hmax⟩, ?_, rfl⟩
    rw [hd, if_neg (by omega), hq, MInt.arithDiv, dif_pos ⟨hmin, hmax⟩]

open Classical in
/-- **C86 (integers).** With integers the division is integer division: `&second / &first` panics with a division by zero if a bin has no coordinates, and otherwise has 1 in the bins all of whose
coordinates pass and 0 in all others. -/
theorem C86_int {τ : IntTy} (hf : FaithfulAxis axes n covers dom) (hrefl : PEq.peq axes axes = true) {h : VecHistogram A (MInt τ)} (hnew : VecHistogram.new axes = .ok h)
    (all passed : List (Axis.Coordinate A)) (hsub : passed.Sublist all) (hd : ∀ c ∈ all, dom c) (hsize : (all.length : ℤ) ≤ τ.max) :
    ∃ t p, h.callAll (all.map .fill) = (t, none) ∧ h.callAll (passed.map .fill) = (p, none) ∧
      (∀ i b, i < n → Axis.bin axes i = .ok (some b) → (∀ c ∈ all, ¬ covers b c) → p.opBorrow .div t = .error .divZero) ∧
      ((∀ i b, i < n → Axis.bin axes i = .ok (some b) → ∃ c ∈ all, covers b c) → ∃ m items, p.opBorrow .div t = .ok (.ok m) ∧ m.iter = .ok items ∧ items.length = n ∧
        ∀ i it, items[i]? = some it → it.index = i ∧ Axis.bin axes i = .ok (some it.bin) ∧
          it.value.val = if (passed.countP fun c => covers it.bin c) = (all.countP fun c => covers it.bin c) then 1 else 0) := by
  have hd' : ∀ c ∈ passed, dom c := fun c hc => hd c (hsub.subset hc)
  have hsize' : (passed.length : ℤ) ≤ τ.max := by have := hsub.length_le; omega
  have hd1 := fill_dom (V := MInt τ) hd'
  have hd2 := fill_dom (V := MInt τ) hd
  have ret : ∀ cs : List (Axis.Coordinate A), (∀ c ∈ cs, dom c) → (cs.length : ℤ) ≤ τ.max → h.callAll (cs.map .fill) = (h.callAllCaught (cs.map .fill), none) := by
    intro cs h1 h2
    obtain ⟨h', -, e, -⟩ := C52_count_int hf hnew cs h1 h2
    have := (C28_until_panic h (cs.map .fill)).1 (by rw [e])
    rw [← this, e]
  have q : ∀ b : Axis.Interval A, (_ ∧ _) := fun b => ratio_mint (τ := τ) (hsub.countP_le (p := fun c => decide (covers b c))) (count_mint passed b hsize') (count_mint all b hsize)
  have pos : ∀ b : Axis.Interval A, 0 < (all.countP fun c => covers b c) ↔ ∃ c ∈ all, covers b c := by
    intro b; rw [List.countP_pos_iff]; simp
  refine ⟨_, _, ret all hd hsize, ret passed hd' hsize', ?_, ?_⟩
  · intro i b hi hb hno
    have h0 : (all.countP fun c => covers b c) = 0 := by
      rw [List.countP_eq_zero]; simpa using hno
    rcases op_filled hf hrefl hnew .div (passed.map .fill) (all.map .fill) hd1 hd2 with ⟨m, items, m1, m2, m3, m4⟩ | ⟨p, j, b', e1, e2, e3, e4⟩
    · obtain ⟨k1, k2, k3⟩ := m4 i _ (List.getElem?_eq_getElem (by omega))
      rw [hb] at k2
      have : items[i].bin = b := by simpa using k2.symm
      rw [this] at k3
      have := ((q b).1 h0).symm.trans k3
      cases this
    · rw [e1]
      rcases Nat.eq_zero_or_pos (all.countP fun c => covers b' c) with h | h
      · have := ((q b').1 h).symm.trans e4
        cases this; rfl
      · obtain ⟨z, hz, -⟩ := (q b').2 h
        have := hz.symm.trans e4
        cases this
  · intro hall
    rcases op_filled hf hrefl hnew .div (passed.map .fill) (all.map .fill) hd1 hd2 with ⟨m, items, m1, m2, m3, m4⟩ | ⟨p, j, b', e1, e2, e3, e4⟩
    · refine ⟨m, items, m1, m2, m3, ?_⟩
      intro i it hi
      obtain ⟨k1, k2, k3⟩ := m4 i it hi
      have hin : i < n := by rw [← m3]; exact (List.getElem?_eq_some_iff.1 hi).1
      obtain ⟨z, z1, z2⟩ := (q it.bin).2 ((pos _).2 (hall i _ hin k2))
      have := z1.symm.trans k3
      cases this
      exact ⟨k1, k2, z2⟩
    · obtain ⟨z, hz, -⟩ := (q b').2 ((pos _).2 (hall j _ e2 e3))
      have := hz.symm.trans e4
      cases this

open Classical in
/-- **C86 (integers, sparse).** Sparse histograms have no bins without coordinates, so there is no panic: the ratio has 1 in the bins all of whose coordinates pass and 0 in all others. -/
theorem C86_int_sparse {τ : IntTy} (hf : FaithfulAxis axes n covers dom) (hrefl : PEq.peq axes axes = true)
    (all passed : List (Axis.Coordinate A)) (hsub : passed.Sublist all) (hd : ∀ c ∈ all, dom c) (hsize : (all.length : ℤ) ≤ τ.max) :
    ∃ t p, (HashHistogram.new axes : HashHistogram A (MInt τ)).callAll (all.map .fill) = (t, none) ∧ (HashHistogram.new axes).callAll (passed.map .fill) = (p, none) ∧
      ∀ ko : HashHistogram.KeyOrder p t, ∃ m, p.opBorrow .div t ko = .ok (.ok m) ∧ ∀ o : m.values.Order, ∃ items, m.iter o = .ok items ∧ (items.map (·.index)).Nodup ∧
        (∀ it ∈ items, it.index < n ∧ Axis.bin axes it.index = .ok (some it.bin) ∧ (∃ c ∈ all, covers it.bin c) ∧
          it.value.val = if (passed.countP fun c => covers it.bin c) = (all.countP fun c => covers it.bin c) then 1 else 0) ∧
        ∀ i b, i < n → Axis.bin axes i = .ok (some b) → (∃ c ∈ all, covers b c) → ∃ it ∈ items, it.index = i ∧ it.bin = b := by
  have hd' : ∀ c ∈ passed, dom c := fun c hc => hd c (hsub.subset hc)
  have hsize' : (passed.length : ℤ) ≤ τ.max := by have := hsub.length_le; omega
  have hd1 := fill_dom (V := MInt τ) hd'
  have hd2 := fill_dom (V := MInt τ) hd
  have ret : ∀ cs : List (Axis.Coordinate A), (∀ c ∈ cs, dom c) → (cs.length : ℤ) ≤ τ.max →
      (HashHistogram.new axes : HashHistogram A (MInt τ)).callAll (cs.map .fill) = ((HashHistogram.new axes).callAllCaught (cs.map .fill), none) := by
    intro cs h1 h2
    obtain ⟨d, hnew, -⟩ := C26_new (V := MInt τ) hf.lawful
    obtain ⟨h', -, e, -⟩ := C52_count_int hf hnew cs h1 h2
    obtain ⟨-, hp⟩ := (SameFilled.new hf.lawful hnew).callAll (cs.map .fill)
    rw [e] at hp
    exact Prod.ext ((C28_until_panic_sparse _ _).1 hp) hp
  have q : ∀ b : Axis.Interval A, (_ ∧ _) := fun b => ratio_mint (τ := τ) (hsub.countP_le (p := fun c => decide (covers b c))) (count_mint passed b hsize') (count_mint all b hsize)
  have pos : ∀ b : Axis.Interval A, 0 < (all.countP fun c => covers b c) ↔ ∃ c ∈ all, covers b c := by
    intro b; rw [List.countP_pos_iff]; simp
  have ex : ∀ b : Axis.Interval A, (∃ call ∈ (passed.map .fill ++ all.map .fill : List (Call (MInt τ) (Axis.Coordinate A))), covers b call.coord) ↔ ∃ c ∈ all, covers b c := by
    intro b
    constructor
    · rintro ⟨call, hc, hb⟩
      rcases List.mem_append.1 hc with hc | hc <;> obtain ⟨c, h1, rfl⟩ := List.mem_map.1 hc
      · exact ⟨c, hsub.subset h1, hb⟩
      · exact ⟨c, h1, hb⟩
    · rintro ⟨c, h1, h2⟩
      exact ⟨.fill c, List.mem_append_right _ (List.mem_map_of_mem h1), h2⟩
  refine ⟨_, _, ret all hd hsize, ret passed hd' hsize', fun ko => ?_⟩
  obtain ⟨m, m1, m2⟩ := op_filled_sparse hf hrefl .div (passed.map .fill) (all.map .fill) hd1 hd2 (fun i b _ _ hc => by
    obtain ⟨z, z1, -⟩ := (q b).2 ((pos b).2 ((ex b).1 hc))
    exact ⟨z, z1⟩) ko
  refine ⟨m, m1, fun o => ?_⟩
  obtain ⟨items, i1, i2, i3, i4⟩ := m2 o
  refine ⟨items, i1, i2, ?_, fun i b hi hb hc => i4 i b hi hb ((ex b).2 hc)⟩
  intro it hit
  obtain ⟨k1, k2, k3, k4⟩ := i3 it hit
  obtain ⟨z, z1, z2⟩ := (q it.bin).2 ((pos _).2 ((ex _).1 k3))
  have := z1.symm.trans k4
  cases this
  exact ⟨k1, k2, (ex _).1 k3, z2⟩

/-! ### Normalising -/

open Classical in
omit [PEq A] in
/-- every coordinate is in at most one bin -/
theorem sum_counts (hf : FaithfulAxis axes n covers dom) (cs : List (Axis.Coordinate A)) (hd : ∀ c ∈ cs, dom c) :
    ((List.range n).map fun i => (cs.countP fun c => decide (Axis.index axes c = .ok (some i)))).sum = cs.countP fun c => decide (InSomeBin axes n covers c) := by
  induction cs with
  | nil => simp
  | cons c cs ih =>
    have hdc := hd c (List.mem_cons_self ..)
    have one : ((List.range n).map fun i => if Axis.index axes c = .ok (some i) then 1 else 0).sum = if InSomeBin axes n covers c then 1 else 0 := by
      obtain ⟨o, ho⟩ := hf.total c hdc
      cases o with
      | none =>
        rw [if_neg]
        · simp [ho]
        · rintro ⟨i, b, h1, h2, h3⟩
          have := (hf.index_iff c hdc i b h1 h2).2 h3
          rw [ho] at this; cases this
      | some k =>
        have hk := hf.lawful.index_lt c k ho
        obtain ⟨b, hb⟩ := hf.lawful.bin_some k hk
        rw [if_pos ⟨k, b, hk, hb, (hf.index_iff c hdc k b hk hb).1 ho⟩]
        have : ((List.range n).map fun i => if Axis.index axes c = .ok (some i) then 1 else 0) = (List.range n).map fun i => if i = k then 1 else 0 := by
          apply List.map_congr_left
          intro i _
          rw [ho]
          by_cases h : i = k
          · subst h; simp
          · have : k ≠ i := fun e => h e.symm
            simp [h, this]
        rw [this]
        have e : ∀ m, ((List.range m).map fun i => if i = k then 1 else 0).sum = if k < m then 1 else 0 := by
          intro m
          induction m with
          | zero => rfl
          | succ m ih =>
            rw [List.range_succ, List.map_append, List.sum_append, ih]
            simp only [List.map_cons, List.map_nil, List.sum_cons, List.sum_nil]
            split <;> split <;> split <;> omega
        rw [e, if_pos hk]
    simp only [List.countP_cons, List.sum_map_add, ih (fun c hc => hd c (List.mem_cons_of_mem _ hc)), decide_eq_true_eq, one]

open Classical in
omit [PEq A] in
/-- **C86 (normalising).** Fill a histogram of floats with at most `2^p` coordinates, with `fill`, and divide it by the sum of its values, however the summation is divided among threads. The sum is exactly the number `N`
of coordinates that some bin contains; if it is not 0, every bin of the result has the float closest to its fraction of them, and the fractions add up to 1 with an error of at most `2^-p`. If it is 0, all bins
of the result are NaN. -/
theorem C86_normalised (hF : F.emin ≤ -F.p) (hf : FaithfulAxis axes n covers dom) {h : VecHistogram A (Flt F)} (hnew : VecHistogram.new axes = .ok h)
    (cs : List (Axis.Coordinate A)) (hd : ∀ c ∈ cs, dom c) (hsize : cs.length ≤ 2 ^ F.p) :
    ∃ t, h.callAll (cs.map .fill) = (t, none) ∧ ∀ s : Split (Flt F), s.items = t.parValues → ∃ total m items, s.sum = .ok total ∧
      total.isFin ∧ total.val = (cs.countP fun c => InSomeBin axes n covers c : ℕ) ∧ t.opScalar .div total = .ok m ∧ m.iter = .ok items ∧ items.length = n ∧
      (∀ i it, items[i]? = some it → it.index = i ∧ Axis.bin axes i = .ok (some it.bin) ∧
        IsEfficiency (cs.countP fun c => covers it.bin c) (cs.countP fun c => InSomeBin axes n covers c) it.value) ∧
      ((∃ c ∈ cs, InSomeBin axes n covers c) → |(items.map fun it => it.value.val).sum - 1| ≤ F.u) := by
  have hd1 := fill_dom (V := Flt F) hd
  refine ⟨_, callAll_total hf hnew hd1 fill_total_flt, fun s hs => ?_⟩
  obtain ⟨ok, hax, hval⟩ := C28_dense hf.lawful hnew (cs.map Call.fill : List (Call (Flt F) _))
  set t := h.callAllCaught (cs.map .fill) with ht
  have tv : ∀ i b, i < n → Axis.bin axes i = .ok (some b) → ∃ v, t.valueAtIndex i = some v ∧ v.isFin ∧ v.val = (cs.countP fun c => covers b c : ℕ) := by
    intro i b hi hb
    obtain ⟨x1, x2⟩ := count_flt (F := F) (covers := covers) cs b hsize
    exact ⟨_, by rw [hval i, if_pos hi, callsIn_eq_covers hf hd1 hi hb], x1, x2⟩
  have cov : ∀ i b, i < n → Axis.bin axes i = .ok (some b) → (cs.countP fun c => covers b c) = cs.countP fun c => decide (Axis.index axes c = .ok (some i)) := by
    intro i b hi hb
    apply List.countP_congr
    intro c hc
    simp only [decide_eq_true_eq]
    exact (hf.index_iff c (hd c hc) i b hi hb).symm
  -- the values as a list
  have vals : t.values.map Flt.val = (List.range n).map fun i => ((cs.countP fun c => decide (Axis.index axes c = .ok (some i)) : ℕ) : ℚ) := by
    apply List.ext_getElem
    · simp [ok.size]
    · intro i h1 h2
      have hi : i < n := by simpa using h2
      obtain ⟨b, hb⟩ := hf.lawful.bin_some i hi
      obtain ⟨v, v1, -, v3⟩ := tv i b hi hb
      have v1' : t.values[i]? = some v := v1
      have := (List.getElem?_eq_some_iff.1 v1').2
      simp only [List.getElem_map, List.getElem_range, this, v3, cov i b hi hb]
  have nat : ∀ v ∈ t.values, v.isFin ∧ ∃ k : ℕ, v.val = k := by
    intro v hv
    obtain ⟨i, hi, rfl⟩ := List.getElem_of_mem hv
    have hi' : i < n := by rw [← ok.size]; exact hi
    obtain ⟨b, hb⟩ := hf.lawful.bin_some i hi'
    obtain ⟨w, w1, w2, w3⟩ := tv i b hi' hb
    have w1' : t.values[i]? = some w := w1
    rw [(List.getElem?_eq_some_iff.1 w1').2]
    exact ⟨w2, _, w3⟩
  set N := cs.countP fun c => decide (InSomeBin axes n covers c) with hN
  have castsum : ∀ l : List ℕ, (l.map fun k : ℕ => (k : ℚ)).sum = ((l.sum : ℕ) : ℚ) := by
    intro l
    induction l with
    | nil => simp
    | cons a l ih => rw [List.map_cons, List.sum_cons, List.sum_cons, ih, Nat.cast_add]
  have sumN : (t.values.map Flt.val).sum = (N : ℚ) := by
    rw [vals, hN, ← sum_counts hf cs hd, ← castsum, List.map_map]; rfl
  have absN : (t.values.map fun v => |v.val|) = t.values.map Flt.val := by
    apply List.map_congr_left
    intro v hv
    obtain ⟨-, k, hk⟩ := nat v hv
    rw [hk]; exact abs_of_nonneg (by positivity)
  have hNle : N ≤ 2 ^ F.p := (List.countP_le_length).trans hsize
  have hp := F.p_ge
  have hE := F.emax_ge
  have hE' := F.emin_le
  have hs' : s.items = t.values := hs
  obtain ⟨total, t1, t2, t3⟩ := C80_float_exact (F := F) (e := 0) ⟨by unfold FFmt.qmin; omega, by omega⟩ s (by rw [hs']; exact fun v hv => (nat v hv).1)
    (by
      rw [hs']
      intro v hv
      obtain ⟨-, k, hk⟩ := nat v hv
      exact ⟨k, by rw [hk]; simp⟩)
    (by
      rw [hs', absN, sumN, zero_add, zpow_natCast]
      exact_mod_cast hNle)
  rw [hs', sumN] at t3
  rcases C36_scalar Op.div ok total with ⟨m, m1, m2, m3, m4⟩ | ⟨p, i, v, -, -, e⟩
  · obtain ⟨items, i1, i2, i3, -⟩ := C38_iter m2
    have each : ∀ i it, items[i]? = some it → it.index = i ∧ Axis.bin axes i = .ok (some it.bin) ∧
        (N = 0 → it.value = .nan) ∧ (0 < N → Closest (((cs.countP fun c => covers it.bin c : ℕ) : ℚ) / N) it.value ∧ (0 ≤ it.value.val ∧ it.value.val ≤ 1) ∧
          (it.value.val = 0 ↔ (cs.countP fun c => covers it.bin c) = 0) ∧ (it.value.val = 1 ↔ (cs.countP fun c => covers it.bin c) = N) ∧
          |it.value.val - ((cs.countP fun c => covers it.bin c : ℕ) : ℚ) / N| ≤ ((cs.countP fun c => covers it.bin c : ℕ) : ℚ) / N * F.u) := by
      intro i it hi
      have hin : i < n := by rw [← i2]; exact (List.getElem?_eq_some_iff.1 hi).1
      obtain ⟨b, v, h1, h2, h3⟩ := i3 i hin
      rw [hi] at h1
      cases h1
      rw [m3, hax] at h2
      refine ⟨rfl, h2, ?_⟩
      obtain ⟨w, w1, w2, w3⟩ := tv i b hin h2
      obtain ⟨z, z1, z2⟩ := m4 i w w1
      rw [h3] at z2
      cases z2
      have e := Except.ok.inj z1
      have hle : (cs.countP fun c => decide (covers b c)) ≤ N := by
        apply List.countP_mono_left
        intro c _ hc
        simp only [decide_eq_true_eq] at hc ⊢
        exact ⟨i, b, hin, h2, hc⟩
      have := ratio_counts hF hle hNle w2 w3 t2 t3
      rw [e] at this
      exact this
    refine ⟨total, m, items, t1, t2, t3, m1, i1, i2, ?_, ?_⟩
    · intro i it hi
      obtain ⟨k1, k2, k3, k4⟩ := each i it hi
      exact ⟨k1, k2, k3, fun hp => ⟨(k4 hp).1, (k4 hp).2.1, (k4 hp).2.2.1, (k4 hp).2.2.2.1⟩⟩
    · intro hex
      have hpos : 0 < N := by
        rw [hN, List.countP_pos_iff]; simpa using hex
      have hNq : (0 : ℚ) < N := by exact_mod_cast hpos
      have frac : (items.map fun it => ((cs.countP fun c => covers it.bin c : ℕ) : ℚ) / N).sum = 1 := by
        have e1 : (items.map fun it => ((cs.countP fun c => covers it.bin c : ℕ) : ℚ)) = t.values.map Flt.val := by
          rw [vals]
          apply List.ext_getElem
          · simp [i2]
          · intro i h1 h2
            have hi : i < n := by simpa using h2
            obtain ⟨-, k2, -⟩ := each i _ (List.getElem?_eq_getElem (by simpa using h1))
            simp only [List.getElem_map, List.getElem_range, cov i _ hi k2]
        have e2 : ∀ l : List (Item (Axis.Interval A) (Flt F)), (l.map fun it => ((cs.countP fun c => covers it.bin c : ℕ) : ℚ) / N).sum =
            (l.map fun it => ((cs.countP fun c => covers it.bin c : ℕ) : ℚ)).sum / N := by
          intro l
          induction l with
          | nil => simp
          | cons a l ih => simp only [List.map_cons, List.sum_cons, ih, add_div]
        rw [e2, e1, sumN, div_self hNq.ne']
      have bound : ∀ l : List (Item (Axis.Interval A) (Flt F)), (∀ it ∈ l, it ∈ items) →
          |(l.map fun it => it.value.val).sum - (l.map fun it => ((cs.countP fun c => covers it.bin c : ℕ) : ℚ) / N).sum| ≤
            (l.map fun it => ((cs.countP fun c => covers it.bin c : ℕ) : ℚ) / N).sum * F.u := by
        intro l
        induction l with
        | nil => simp
        | cons a l ih =>
          intro hmem
          have h1 := ih fun it hit => hmem it (List.mem_cons_of_mem _ hit)
          obtain ⟨k, hk⟩ := List.mem_iff_getElem?.1 (hmem a (List.mem_cons_self ..))
          obtain ⟨-, -, -, h2⟩ := each k a hk
          have h2 := (h2 hpos).2.2.2.2
          simp only [List.map_cons, List.sum_cons]
          rw [add_sub_add_comm, add_mul]
          exact (abs_add_le _ _).trans (add_le_add h2 h1)
      have := bound items fun _ h => h
      rwa [frac, one_mul] at this
  · cases e
end

/-! ## What does not hold -/

section
attribute [local instance] dbg64

/-- **C86**: if the part is filled in another order than the whole, rounding can make it larger than the whole, and the ratio larger than 1 (weights 1, 1 and 2^53). -/
theorem C86_counterexample_order : ∃ (all passed : List (String × Option F64)) (h t p m : VecHistogram (CategoryNoFlow String) F64) (q : F64), passed.Perm all ∧
    VecHistogram.new exAxis = .ok h ∧ h.callAll (numCalls all) = (t, none) ∧ h.callAll (numCalls passed) = (p, none) ∧ p.opBorrow .div t = .ok (.ok m) ∧
      m.valueAtIndex 0 = some q ∧ POrd.gt q (f64 1) = true :=
  ⟨[("a", some (f64 9007199254740992)), ("a", none), ("a", none)], [("a", none), ("a", none), ("a", some (f64 9007199254740992))], ⟨exAxis, [Flt.zero false, Flt.zero false]⟩, _, _, _, _,
    (List.perm_append_comm (l₁ := [("a", none), ("a", none)]) (l₂ := [("a", some (f64 9007199254740992))])), rfl, rfl, rfl, rfl, rfl, by decide +kernel⟩
end
end NdHist
