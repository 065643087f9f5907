import Verif.SpecArith
import Verif.Props.WrapOps
import Verif.Props.Prog
/-!
# C87: arithmetic with histograms
-/
namespace NdHist
open RNum

section
variable [cfg : Cfg] {A V : Type} [Axis A] [PEq A] {axes : A} {n : Nat}

/-- **C87 (bin by bin).** Whatever the value type: an expression of dense histograms with equal axes is computed bin by bin. `x j i` is bin `i` of variable `j`. If the operators
of the value type panic in no bin, the result has the same axes, and its bin `i` is the value of the expression for the bins `i`; otherwise the program panics like one of the bins. It never returns
the error of incompatible axes. -/
theorem C87_binwise [ROps V] (hrefl : PEq.peq axes axes = true) {hs : Nat → VecHistogram A V} (ok : ∀ j, (hs j).Ok n) (hax : ∀ j, (hs j).axes = axes)
    (x : Nat → Nat → V) (hx : ∀ j i, i < n → (hs j).valueAtIndex i = some (x j i)) (e : HExpr V) :
    (∃ m, e.eval hs = .ok (.ok m) ∧ m.Ok n ∧ m.axes = axes ∧ ∀ i, i < n → ∃ v, m.valueAtIndex i = some v ∧ e.value (fun j => x j i) = .ok v) ∨
    (∃ p i, e.eval hs = .error p ∧ i < n ∧ e.value (fun j => x j i) = .error p) := by
  induction e with
  | var j => exact .inl ⟨hs j, rfl, ok j, hax j, fun i hi => ⟨_, hx j i hi, rfl⟩⟩
  | op o l r ihl ihr =>
    rcases ihl with ⟨a, a1, a2, a3, a4⟩ | ⟨p, i, e1, e2, e3⟩
    · rcases ihr with ⟨b, b1, b2, b3, b4⟩ | ⟨p, i, e1, e2, e3⟩
      · have hev : (HExpr.op o l r).eval hs = a.opBorrow o b := by
          simp only [HExpr.eval, a1, b1, bind, Except.bind]
        rw [hev]
        rcases C33_binwise_dense o a2 b2 (by rw [a3, b3]; exact hrefl) with ⟨m, m1, m2, m3, m4⟩ | ⟨p, i, u, v, e1, e2, e3, e4⟩
        · refine .inl ⟨m, m1, m2, m3.trans a3, fun i hi => ?_⟩
          obtain ⟨u, v, w, q1, q2, q3, q4⟩ := m4 i hi
          obtain ⟨u', u1, u2⟩ := a4 i hi
          obtain ⟨v', v1, v2⟩ := b4 i hi
          rw [q1] at u1; rw [q2] at v1
          cases u1; cases v1
          exact ⟨w, q4, by simp only [HExpr.value, u2, v2, bind, Except.bind]; exact q3⟩
        · have hi : i < n := by
            have := (List.getElem?_eq_some_iff.1 (show a.values[i]? = some u from e2)).1
            rwa [a2.size] at this
          refine .inr ⟨p, i, e1, hi, ?_⟩
          obtain ⟨u', u1, u2⟩ := a4 i hi
          obtain ⟨v', v1, v2⟩ := b4 i hi
          rw [e2] at u1; rw [e3] at v1
          cases u1; cases v1
          simp only [HExpr.value, u2, v2, bind, Except.bind]; exact e4
      · refine .inr ⟨p, i, by simp only [HExpr.eval, a1, e1, bind, Except.bind], e2, ?_⟩
        obtain ⟨u', -, u2⟩ := a4 i e2
        simp only [HExpr.value, u2, e3, bind, Except.bind]
    · exact .inr ⟨p, i, by simp only [HExpr.eval, e1, bind, Except.bind], e2, by simp only [HExpr.value, e3, bind, Except.bind]⟩
  | scalar o e c ih =>
    rcases ih with ⟨a, a1, a2, a3, a4⟩ | ⟨p, i, e1, e2, e3⟩
    · rcases C36_scalar o a2 c with ⟨m, m1, m2, m3, m4⟩ | ⟨p, i, v, e1, e2, e3⟩
      · refine .inl ⟨m, by simp only [HExpr.eval, a1, m1, bind, Except.bind, pure, Except.pure], m2, m3.trans a3, fun i hi => ?_⟩
        obtain ⟨u, u1, u2⟩ := a4 i hi
        obtain ⟨z, z1, z2⟩ := m4 i u u1
        exact ⟨z, z2, by simp only [HExpr.value, u2, bind, Except.bind]; exact z1⟩
      · have hi : i < n := by
          have := (List.getElem?_eq_some_iff.1 (show a.values[i]? = some v from e2)).1
          rwa [a2.size] at this
        refine .inr ⟨p, i, by simp only [HExpr.eval, a1, e1, bind, Except.bind], hi, ?_⟩
        obtain ⟨u, u1, u2⟩ := a4 i hi
        rw [e2] at u1; cases u1
        simp only [HExpr.value, u2, bind, Except.bind]; exact e3
    · exact .inr ⟨p, i, by simp only [HExpr.eval, e1, bind, Except.bind], e2, by simp only [HExpr.value, e3, bind, Except.bind]⟩
end

/-! ## Integers -/

section
variable [cfg : Cfg] {τ : IntTy}

theorem MInt.op_fits (o : Op) (a b : MInt τ) (hd : o = .div → b.val ≠ 0) (h1 : τ.min ≤ HExpr.ringOp Int.tdiv o a.val b.val) (h2 : HExpr.ringOp Int.tdiv o a.val b.val ≤ τ.max) :
    ROps.op o a b = .ok ⟨HExpr.ringOp Int.tdiv o a.val b.val, h1, h2⟩ := by
  cases o with
  | add => exact MInt.arith_ok h1 h2
  | sub => exact MInt.arith_ok h1 h2
  | mul => exact MInt.arith_ok h1 h2
  | div =>
    show (if b.val = 0 then _ else _) = _
    rw [if_neg (hd rfl)]
    exact MInt.arithDiv_ok h1 h2

theorem MInt.op_checked (hc : Cfg.checked = true) (o : Op) (a b c : MInt τ) (h : ROps.op o a b = .ok c) :
    (o = .div → b.val ≠ 0) ∧ c.val = HExpr.ringOp Int.tdiv o a.val b.val := by
  cases o with
  | add => exact ⟨fun h => (by cases h), (MInt.arith_checked hc h).2.2⟩
  | sub => exact ⟨fun h => (by cases h), (MInt.arith_checked hc h).2.2⟩
  | mul => exact ⟨fun h => (by cases h), (MInt.arith_checked hc h).2.2⟩
  | div =>
    have h' : (if b.val = 0 then (.error .divZero : Res (MInt τ)) else MInt.arithDiv (a.val.tdiv b.val)) = .ok c := h
    split at h'
    · cases h'
    · next h0 =>
      refine ⟨fun _ => h0, ?_⟩
      unfold MInt.arithDiv at h'
      split at h'
      · cases h'; rfl
      · cases h'

theorem value_fits (x : Nat → MInt τ) (e : HExpr (MInt τ)) (h : e.Fits fun j => (x j).val) : ∃ v, e.value x = .ok v ∧ v.val = e.inInt fun j => (x j).val := by
  induction e with
  | var j => exact ⟨_, rfl, rfl⟩
  | op o l r ihl ihr =>
    obtain ⟨h1, h2, h3, h4, h5⟩ := h
    obtain ⟨a, a1, a2⟩ := ihl h1
    obtain ⟨b, b1, b2⟩ := ihr h2
    simp only [HExpr.inInt, ← a2, ← b2] at h3 h4 h5 ⊢
    exact ⟨_, by simp only [HExpr.value, a1, b1, bind, Except.bind]; exact MInt.op_fits o a b h3 h4 h5, rfl⟩
  | scalar o e c ih =>
    obtain ⟨h1, h3, h4, h5⟩ := h
    obtain ⟨a, a1, a2⟩ := ih h1
    simp only [HExpr.inInt, ← a2] at h4 h5 ⊢
    exact ⟨_, by simp only [HExpr.value, a1, bind, Except.bind]; exact MInt.op_fits o a c h3 h4 h5, rfl⟩

theorem value_checked (hc : Cfg.checked = true) (x : Nat → MInt τ) (e : HExpr (MInt τ)) {v : MInt τ} (h : e.value x = .ok v) :
    (e.Fits fun j => (x j).val) ∧ v.val = e.inInt fun j => (x j).val := by
  induction e generalizing v with
  | var j => cases h; exact ⟨trivial, rfl⟩
  | op o l r ihl ihr =>
    simp only [HExpr.value] at h
    rw [Res.bind_eq_ok] at h
    obtain ⟨a, ha, h⟩ := h
    rw [Res.bind_eq_ok] at h
    obtain ⟨b, hb, h⟩ := h
    obtain ⟨l1, l2⟩ := ihl ha
    obtain ⟨r1, r2⟩ := ihr hb
    obtain ⟨q1, q2⟩ := MInt.op_checked hc o a b v h
    rw [l2, r2] at q2
    refine ⟨⟨l1, r1, fun hd => by rw [← r2]; exact q1 hd, ?_⟩, q2⟩
    rw [show (HExpr.op o l r).inInt _ = v.val from q2.symm]
    exact ⟨v.min_le, v.le_max⟩
  | scalar o e c ih =>
    simp only [HExpr.value] at h
    rw [Res.bind_eq_ok] at h
    obtain ⟨a, ha, h⟩ := h
    obtain ⟨l1, l2⟩ := ih ha
    obtain ⟨q1, q2⟩ := MInt.op_checked hc o a c v h
    rw [l2] at q2
    refine ⟨⟨l1, q1, ?_⟩, q2⟩
    rw [show (HExpr.scalar o e c).inInt _ = v.val from q2.symm]
    exact ⟨v.min_le, v.le_max⟩

theorem value_release (hc : Cfg.checked = false) (x : Nat → MInt τ) (e : HExpr (MInt τ)) (hn : e.NoDiv) :
    ∃ v, e.value x = .ok v ∧ v.val ≡ (e.inInt fun j => (x j).val) [ZMOD 2 ^ τ.bits] := by
  have H := C73_release_ops (τ := τ) hc
  have step : ∀ (o : Op) (a b : MInt τ) (k l : ℤ), o ≠ .div → a.val ≡ k [ZMOD 2 ^ τ.bits] → b.val ≡ l [ZMOD 2 ^ τ.bits] →
      ∃ v, ROps.op o a b = .ok v ∧ v.val ≡ HExpr.ringOp Int.tdiv o k l [ZMOD 2 ^ τ.bits] := by
    intro o a b k l ho ha hb
    cases o with
    | add => obtain ⟨c, c1, c2⟩ := H.add a b; exact ⟨c, c1, c2.trans (ha.add hb)⟩
    | sub => obtain ⟨c, c1, c2⟩ := H.sub a b; exact ⟨c, c1, c2.trans (ha.sub hb)⟩
    | mul => obtain ⟨c, c1, c2⟩ := H.mul a b; exact ⟨c, c1, c2.trans (ha.mul hb)⟩
    | div => exact absurd rfl ho
  induction e with
  | var j => exact ⟨_, rfl, Int.ModEq.refl _⟩
  | op o l r ihl ihr =>
    obtain ⟨h1, h2, h3⟩ := hn
    obtain ⟨a, a1, a2⟩ := ihl h2
    obtain ⟨b, b1, b2⟩ := ihr h3
    obtain ⟨v, v1, v2⟩ := step o a b _ _ h1 a2 b2
    exact ⟨v, by simp only [HExpr.value, a1, b1, bind, Except.bind]; exact v1, v2⟩
  | scalar o e c ih =>
    obtain ⟨h1, h2⟩ := hn
    obtain ⟨a, a1, a2⟩ := ih h2
    obtain ⟨v, v1, v2⟩ := step o a c _ _ h1 a2 (Int.ModEq.refl _)
    exact ⟨v, by simp only [HExpr.value, a1, bind, Except.bind]; exact v1, v2⟩

variable {A : Type} [Axis A] [PEq A] {axes : A} {n : Nat}

/-- **C87 (integers, overflow checks).** In a build with overflow checks an expression with `+`, `-`, `*`, `/` of integer histograms and numbers returns exactly if in every bin every intermediate
result fits in the type and nothing is divided by 0, and then has in every bin the number that school arithmetic gives. -/
theorem C87_checked (hc : Cfg.checked = true) (hrefl : PEq.peq axes axes = true) {hs : Nat → VecHistogram A (MInt τ)} (ok : ∀ j, (hs j).Ok n) (hax : ∀ j, (hs j).axes = axes)
    (x : Nat → Nat → MInt τ) (hx : ∀ j i, i < n → (hs j).valueAtIndex i = some (x j i)) (e : HExpr (MInt τ)) :
    ((∃ m, e.eval hs = .ok (.ok m)) ↔ ∀ i, i < n → e.Fits fun j => (x j i).val) ∧
    (∀ m, e.eval hs = .ok (.ok m) → m.Ok n ∧ m.axes = axes ∧ ∀ i, i < n → ∃ v, m.valueAtIndex i = some v ∧ v.val = e.inInt fun j => (x j i).val) := by
  rcases C87_binwise hrefl ok hax x hx e with ⟨m, m1, m2, m3, m4⟩ | ⟨p, i, e1, e2, e3⟩
  · refine ⟨⟨fun _ i hi => ?_, fun _ => ⟨m, m1⟩⟩, fun m' hm' => ?_⟩
    · obtain ⟨v, -, v2⟩ := m4 i hi
      exact (value_checked hc _ e v2).1
    · rw [m1] at hm'
      cases hm'
      refine ⟨m2, m3, fun i hi => ?_⟩
      obtain ⟨v, v1, v2⟩ := m4 i hi
      exact ⟨v, v1, (value_checked hc _ e v2).2⟩
  · refine ⟨⟨?_, fun h => ?_⟩, fun m' hm' => ?_⟩
    · rintro ⟨m, hm⟩; rw [e1] at hm; cases hm
    · obtain ⟨v, v1, -⟩ := value_fits _ e (h i e2)
      rw [e3] at v1; cases v1
    · rw [e1] at hm'; cases hm'

/-- **C87 (integers, no overflow checks).** In a build without overflow checks an expression with `+`, `-`, `*` always returns, and every bin has the number of school arithmetic modulo `2^bits`: exactly this number
if it fits in the type, whatever the intermediate results. -/
theorem C87_release (hc : Cfg.checked = false) (hrefl : PEq.peq axes axes = true) {hs : Nat → VecHistogram A (MInt τ)} (ok : ∀ j, (hs j).Ok n) (hax : ∀ j, (hs j).axes = axes)
    (x : Nat → Nat → MInt τ) (hx : ∀ j i, i < n → (hs j).valueAtIndex i = some (x j i)) (e : HExpr (MInt τ)) (hn : e.NoDiv) :
    ∃ m, e.eval hs = .ok (.ok m) ∧ m.Ok n ∧ m.axes = axes ∧ ∀ i, i < n → ∃ v, m.valueAtIndex i = some v ∧ v.val ≡ (e.inInt fun j => (x j i).val) [ZMOD 2 ^ τ.bits] ∧
      (InRange τ (e.inInt fun j => (x j i).val) → v.val = e.inInt fun j => (x j i).val) := by
  rcases C87_binwise hrefl ok hax x hx e with ⟨m, m1, m2, m3, m4⟩ | ⟨p, i, e1, e2, e3⟩
  · refine ⟨m, m1, m2, m3, fun i hi => ?_⟩
    obtain ⟨v, v1, v2⟩ := m4 i hi
    obtain ⟨w, w1, w2⟩ := value_release hc (fun j => x j i) e hn
    rw [v2] at w1; cases w1
    exact ⟨v, v1, w2, MInt.eq_of_modEq w2⟩
  · obtain ⟨w, w1, -⟩ := value_release hc (fun j => x j i) e hn
    rw [e3] at w1; cases w1

omit [PEq A] in
theorem Ok_ext {m m' : VecHistogram A (MInt τ)} (h : m.Ok n) (h' : m'.Ok n) (ha : m.axes = m'.axes)
    (hv : ∀ i, i < n → m.valueAtIndex i = m'.valueAtIndex i) : m = m' := by
  have : m.values = m'.values := by
    apply List.ext_getElem?
    intro i
    by_cases hi : i < n
    · exact hv i hi
    · rw [List.getElem?_eq_none (by rw [h.size]; omega), List.getElem?_eq_none (by rw [h'.size]; omega)]
  cases m; cases m'; cases ha; cases this; rfl

/-- **C87 (laws of arithmetic).** Two expressions with `+`, `-`, `*` that are equal in school arithmetic give the same histogram, in builds with overflow checks if both return, and without overflow checks always. -/
theorem C87_laws (hrefl : PEq.peq axes axes = true) {hs : Nat → VecHistogram A (MInt τ)} (ok : ∀ j, (hs j).Ok n) (hax : ∀ j, (hs j).axes = axes)
    (e e' : HExpr (MInt τ)) (hn : e.NoDiv) (hn' : e'.NoDiv) (heq : ∀ x : Nat → ℤ, e.inInt x = e'.inInt x) :
    (Cfg.checked = true → ∀ m m', e.eval hs = .ok (.ok m) → e'.eval hs = .ok (.ok m') → m = m') ∧
    (Cfg.checked = false → ∃ m, e.eval hs = .ok (.ok m) ∧ e'.eval hs = .ok (.ok m)) := by
  have hx : ∀ j i, i < n → (hs j).valueAtIndex i = some (((hs j).valueAtIndex i).getD ⟨0, τ.min_le_zero, by have := τ.max_ge; omega⟩) := by
    intro j i hi
    obtain ⟨v, hv⟩ := (ok j).get hi
    rw [show (hs j).valueAtIndex i = some v from hv]; rfl
  constructor
  · intro hc m m' h h'
    obtain ⟨a1, a2, a3⟩ := (C87_checked hc hrefl ok hax _ hx e).2 m h
    obtain ⟨b1, b2, b3⟩ := (C87_checked hc hrefl ok hax _ hx e').2 m' h'
    refine Ok_ext a1 b1 (a2.trans b2.symm) fun i hi => ?_
    obtain ⟨v, v1, v2⟩ := a3 i hi
    obtain ⟨w, w1, w2⟩ := b3 i hi
    rw [v1, w1, MInt.ext (v2.trans ((heq _).trans w2.symm))]
  · intro hc
    obtain ⟨m, a0, a1, a2, a3⟩ := C87_release hc hrefl ok hax _ hx e hn
    obtain ⟨m', b0, b1, b2, b3⟩ := C87_release hc hrefl ok hax _ hx e' hn'
    refine ⟨m, a0, ?_⟩
    rw [b0, Ok_ext a1 b1 (a2.trans b2.symm) fun i hi => ?_]
    obtain ⟨v, v1, v2, -⟩ := a3 i hi
    obtain ⟨w, w1, w2, -⟩ := b3 i hi
    rw [heq] at v2
    rw [v1, w1, MInt.ext (MInt.eq_of_modEq (v2.trans w2.symm) ⟨w.min_le, w.le_max⟩)]
end

/-! ## Floats -/

section
variable [cfg : Cfg] {F : FFmt}

theorem Flt.op_rounds (o : Op) {a b : Flt F} (ha : a.isFin) (hb : b.isFin) (hd : o = .div → b.val ≠ 0) :
    ∃ z, ROps.op o a b = .ok z ∧ Flt.Rounds (HExpr.ringOp (· / ·) o a.val b.val) z := by
  cases o with
  | add => exact ⟨_, rfl, Flt.add_rounds ha hb⟩
  | sub => exact ⟨_, rfl, Flt.sub_rounds ha hb⟩
  | mul => exact ⟨_, rfl, Flt.mul_rounds ha hb⟩
  | div => exact ⟨_, rfl, Flt.div_rounds ha hb (hd rfl)⟩

theorem Flt.op_exact (o : Op) {a b : Flt F} (ha : a.isFin) (hb : b.isFin) (hd : o = .div → b.val ≠ 0) (hz : ∃ z : Flt F, z.isFin ∧ z.val = HExpr.ringOp (· / ·) o a.val b.val) :
    ∃ z, ROps.op o a b = .ok z ∧ z.isFin ∧ z.val = HExpr.ringOp (· / ·) o a.val b.val := by
  obtain ⟨z, z1, z2⟩ := Flt.op_rounds o ha hb hd
  obtain ⟨w, -, w2⟩ := hz
  rw [← w2] at z2 ⊢
  obtain ⟨f1, f2⟩ := z2.fin_of w.abs_val_le
  exact ⟨z, z1, f1, by rw [f2, Flt.rs_val]⟩

theorem value_exact (x : Nat → Flt F) (e : HExpr (Flt F)) (hf : ∀ j, e.Uses j → (x j).isFin) (h : e.Exact fun j => (x j).val) :
    ∃ v, e.value x = .ok v ∧ v.isFin ∧ v.val = e.inRat fun j => (x j).val := by
  induction e with
  | var j => exact ⟨_, rfl, hf j rfl, rfl⟩
  | op o l r ihl ihr =>
    obtain ⟨h1, h2, h3, h4⟩ := h
    obtain ⟨a, a1, a2, a3⟩ := ihl (fun j hj => hf j (.inl hj)) h1
    obtain ⟨b, b1, b2, b3⟩ := ihr (fun j hj => hf j (.inr hj)) h2
    simp only [HExpr.inRat, ← a3, ← b3] at h3 h4 ⊢
    obtain ⟨z, z1, z2, z3⟩ := Flt.op_exact o a2 b2 h3 h4
    exact ⟨z, by simp only [HExpr.value, a1, b1, bind, Except.bind]; exact z1, z2, z3⟩
  | scalar o e c ih =>
    obtain ⟨h1, h2, h3, h4⟩ := h
    obtain ⟨a, a1, a2, a3⟩ := ih hf h1
    simp only [HExpr.inRat, ← a3] at h4 ⊢
    obtain ⟨z, z1, z2, z3⟩ := Flt.op_exact o a2 h2 h3 h4
    exact ⟨z, by simp only [HExpr.value, a1, bind, Except.bind]; exact z1, z2, z3⟩

theorem value_flt_ok (x : Nat → Flt F) (e : HExpr (Flt F)) : ∃ v, e.value x = .ok v := by
  have tot : ∀ (o : Op) (a b : Flt F), ∃ z, ROps.op o a b = .ok z := by
    intro o a b; cases o <;> exact ⟨_, rfl⟩
  induction e with
  | var j => exact ⟨_, rfl⟩
  | op o l r ihl ihr =>
    obtain ⟨a, a1⟩ := ihl
    obtain ⟨b, b1⟩ := ihr
    obtain ⟨z, hz⟩ := tot o a b
    exact ⟨z, by simp only [HExpr.value, a1, b1, bind, Except.bind]; exact hz⟩
  | scalar o e c ih =>
    obtain ⟨a, a1⟩ := ih
    obtain ⟨z, hz⟩ := tot o a c
    exact ⟨z, by simp only [HExpr.value, a1, bind, Except.bind]; exact hz⟩

variable {A : Type} [Axis A] [PEq A] {axes : A} {n : Nat}

/-- **C87 (floats).** An expression of float histograms and numbers always returns. A bin in which the results of all operations are floats in school arithmetic (for example integers up to `2^p`) has the number of
school arithmetic. -/
theorem C87_float (hrefl : PEq.peq axes axes = true) {hs : Nat → VecHistogram A (Flt F)} (ok : ∀ j, (hs j).Ok n) (hax : ∀ j, (hs j).axes = axes)
    (x : Nat → Nat → Flt F) (hx : ∀ j i, i < n → (hs j).valueAtIndex i = some (x j i)) (e : HExpr (Flt F)) :
    ∃ m, e.eval hs = .ok (.ok m) ∧ m.Ok n ∧ m.axes = axes ∧ ∀ i, i < n → (∀ j, e.Uses j → (x j i).isFin) → (e.Exact fun j => (x j i).val) →
      ∃ v, m.valueAtIndex i = some v ∧ v.isFin ∧ v.val = e.inRat fun j => (x j i).val := by
  rcases C87_binwise hrefl ok hax x hx e with ⟨m, m1, m2, m3, m4⟩ | ⟨p, i, e1, e2, e3⟩
  · refine ⟨m, m1, m2, m3, fun i hi hf he => ?_⟩
    obtain ⟨v, v1, v2⟩ := m4 i hi
    obtain ⟨w, w1, w2, w3⟩ := value_exact _ e hf he
    rw [v2] at w1; cases w1
    exact ⟨v, v1, w2, w3⟩
  · obtain ⟨v, hv⟩ := value_flt_ok (fun j => x j i) e
    rw [e3] at hv; cases hv

/-- **C87 (floats, one operation).** In general every operation gives in every bin the closest float to the result of school arithmetic (if the numbers are finite, the divisor is not 0 and the result not out of range). -/
theorem C87_float_rounded (o : Op) {l r : VecHistogram A (Flt F)} (hl : l.Ok n) (hr : r.Ok n) (hax : PEq.peq l.axes r.axes = true) :
    ∃ m, l.opBorrow o r = .ok (.ok m) ∧ m.Ok n ∧ m.axes = l.axes ∧ ∀ i x y, l.valueAtIndex i = some x → r.valueAtIndex i = some y → x.isFin → y.isFin → (o = .div → y.val ≠ 0) →
      |HExpr.ringOp (· / ·) o x.val y.val| ≤ F.maxFin → ∃ z, m.valueAtIndex i = some z ∧ Closest (HExpr.ringOp (· / ·) o x.val y.val) z := by
  rcases C33_binwise_dense o hl hr hax with ⟨m, m1, m2, m3, m4⟩ | ⟨p, i, u, v, e1, e2, e3, e4⟩
  · refine ⟨m, m1, m2, m3, fun i x y hx hy h1 h2 h3 h4 => ?_⟩
    have hi : i < n := by
      have := (List.getElem?_eq_some_iff.1 (show l.values[i]? = some x from hx)).1
      rwa [hl.size] at this
    obtain ⟨u, v, z, q1, q2, q3, q4⟩ := m4 i hi
    rw [hx] at q1; rw [hy] at q2
    cases q1; cases q2
    obtain ⟨w, w1, w2⟩ := Flt.op_rounds o h1 h2 h3
    rw [q3] at w1; cases w1
    exact ⟨z, q4, w2.closest h4⟩
  · cases o <;> cases e4
end

/-! ## Exchanging the operands -/

section
variable [cfg : Cfg] {A V : Type} [Axis A] [PEq A]

omit cfg [Axis A] in
/-- **C87 (exchanging operands).** If the operator of the value type does not depend on the order of its operands, neither does that of histograms with the same axes, panics included. -/
theorem C87_commutes [ROps V] (o : Op) (hcomm : ∀ x y : V, ROps.op o x y = ROps.op o y x) {l r : VecHistogram A V} (hax : l.axes = r.axes) : l.opBorrow o r = r.opBorrow o l := by
  have z : ∀ a b : List V, zipRes (ROps.op o) a b = zipRes (ROps.op o) b a := by
    intro a
    induction a with
    | nil => intro b; cases b <;> rfl
    | cons x a ih =>
      intro b
      cases b with
      | nil => rfl
      | cons y b => simp only [zipRes, hcomm x y, ih b]
  unfold VecHistogram.opBorrow
  rw [hax, z]

omit [Axis A] in
/-- **C87 (exchanging operands, integers).** in every build -/
theorem C87_commutes_int {τ : IntTy} {o : Op} (ho : o = .add ∨ o = .mul) {l r : VecHistogram A (MInt τ)} (hax : l.axes = r.axes) : l.opBorrow o r = r.opBorrow o l := by
  refine C87_commutes o (fun x y => ?_) hax
  rcases ho with rfl | rfl
  · show MInt.arith _ = MInt.arith _; rw [add_comm]
  · show MInt.arith _ = MInt.arith _; rw [mul_comm]

omit cfg [Axis A] [PEq A] in
theorem Flt.add_comm' {F : FFmt} (a b : Flt F) : Flt.add a b = Flt.add b a := by
  cases a <;> cases b <;> simp only [Flt.add]
  · rename_i s t; cases s <;> cases t <;> rfl
  · rename_i s a ha t b hb
    rw [add_comm (Flt.sval s a), Bool.and_comm]

omit cfg [Axis A] [PEq A] in
theorem Flt.mul_comm' {F : FFmt} (a b : Flt F) : Flt.mul a b = Flt.mul b a := by
  cases a <;> cases b <;> simp only [Flt.mul, Bool.xor_comm, mul_comm]

omit [Axis A] in
/-- **C87 (exchanging operands, floats).** to the last bit, infinities, NaN and signs of zero included -/
theorem C87_commutes_float {F : FFmt} {o : Op} (ho : o = .add ∨ o = .mul) {l r : VecHistogram A (Flt F)} (hax : l.axes = r.axes) : l.opBorrow o r = r.opBorrow o l := by
  refine C87_commutes o (fun x y => ?_) hax
  rcases ho with rfl | rfl
  · exact congrArg Except.ok (Flt.add_comm' x y)
  · exact congrArg Except.ok (Flt.mul_comm' x y)
end

/-! ## Sparse histograms -/

section
variable [cfg : Cfg] {A V : Type} [Axis A] [PEq A] {axes : A} {n : Nat}

/-- **C87 (sparse histograms).** The result of an expression with `+`, `-`, `*` of sparse histograms has the bins of the histograms that occur in it, and the value of the expression in each, a missing bin
counting as the default value. -/
theorem C87_sparse [ROps V] [RDefault V] (h0 : ∀ o, o ≠ .div → ROps.op o (RDefault.dflt : V) RDefault.dflt = .ok RDefault.dflt)
    {hs : Nat → HashHistogram A V} (ok : ∀ j, (hs j).Ok n) (hax : ∀ j, (hs j).axes = axes) {e : HExpr V} (hn : e.NoDiv) {m : HashHistogram A V} (hm : e.EvalSparse hs m) :
    m.Ok n ∧ m.axes = axes ∧ ∀ i, (m.valueAtIndex i ≠ none ↔ ∃ j, e.Uses j ∧ (hs j).valueAtIndex i ≠ none) ∧
      e.value (fun j => ((hs j).valueAtIndex i).getD RDefault.dflt) = .ok ((m.valueAtIndex i).getD RDefault.dflt) := by
  induction hm with
  | var j => exact ⟨ok j, hax j, fun i => ⟨⟨fun h => ⟨j, rfl, h⟩, fun ⟨k, hk, h⟩ => by cases hk; exact h⟩, rfl⟩⟩
  | op ko _ _ hop ihl ihr =>
    rename_i o l r a b m _ _
    obtain ⟨d1, d2, d3⟩ := hn
    obtain ⟨a1, a2, a3⟩ := ihl d2
    obtain ⟨b1, b2, b3⟩ := ihr d3
    obtain ⟨m1, m2, m3⟩ := C33_binwise_sparse o a1 b1 ko hop
    refine ⟨m1, m2.trans a2, fun i => ?_⟩
    obtain ⟨p1, p2⟩ := a3 i
    obtain ⟨q1, q2⟩ := b3 i
    have hmer := m3 i
    have uses : (∃ j, (HExpr.op o l r).Uses j ∧ (hs j).valueAtIndex i ≠ none) ↔ (a.valueAtIndex i ≠ none ∨ b.valueAtIndex i ≠ none) := by
      rw [p1, q1]
      constructor
      · rintro ⟨j, hj | hj, h⟩
        · exact .inl ⟨j, hj, h⟩
        · exact .inr ⟨j, hj, h⟩
      · rintro (⟨j, hj, h⟩ | ⟨j, hj, h⟩)
        · exact ⟨j, .inl hj, h⟩
        · exact ⟨j, .inr hj, h⟩
    rw [uses]
    simp only [HExpr.value, p2, q2, bind, Except.bind]
    clear p1 q1 p2 q2 uses
    revert hmer
    generalize a.valueAtIndex i = x
    generalize b.valueAtIndex i = y
    generalize m.valueAtIndex i = z
    intro hmer
    rcases x with _ | x <;> rcases y with _ | y
    · simp only [HashHistogram.merged, Except.ok.injEq] at hmer
      subst hmer
      exact ⟨by simp, h0 o d1⟩
    all_goals
      simp only [HashHistogram.merged] at hmer
      revert hmer
      generalize (ROps.op o (Option.getD (_ : Option V) RDefault.dflt) _ : Res V) = q
      intro hmer
      cases q with
      | error => cases hmer
      | ok q =>
        simp only [Except.map, Except.ok.injEq] at hmer
        subst hmer; simp

theorem op_zero_int {τ : IntTy} (o : Op) (ho : o ≠ .div) : ROps.op o (RDefault.dflt : MInt τ) RDefault.dflt = .ok RDefault.dflt := by
  have h1 := τ.min_le_zero
  have h2 := τ.max_ge
  have := MInt.op_fits o (RDefault.dflt : MInt τ) RDefault.dflt (fun h => absurd h ho)
  have e : HExpr.ringOp Int.tdiv o (RDefault.dflt : MInt τ).val (RDefault.dflt : MInt τ).val = 0 := by
    cases o <;> rfl
  rw [this (by rw [e]; exact h1) (by rw [e]; omega)]
  exact congrArg Except.ok (MInt.ext e)

/-- **C87 (sparse, integers).** With `+`, `-`, `*` of integers: with overflow checks, if the program returns, every bin has the number of school arithmetic (a missing bin counting as 0); without, this number modulo `2^bits`. -/
theorem C87_sparse_int {τ : IntTy} {hs : Nat → HashHistogram A (MInt τ)} (ok : ∀ j, (hs j).Ok n) (hax : ∀ j, (hs j).axes = axes) {e : HExpr (MInt τ)} (hn : e.NoDiv)
    {m : HashHistogram A (MInt τ)} (hm : e.EvalSparse hs m) :
    m.Ok n ∧ m.axes = axes ∧ ∀ i, (m.valueAtIndex i ≠ none ↔ ∃ j, e.Uses j ∧ (hs j).valueAtIndex i ≠ none) ∧
      (Cfg.checked = true → ((m.valueAtIndex i).getD RDefault.dflt).val = e.inInt fun j => (((hs j).valueAtIndex i).getD RDefault.dflt).val) ∧
      (Cfg.checked = false → ((m.valueAtIndex i).getD RDefault.dflt).val ≡ (e.inInt fun j => (((hs j).valueAtIndex i).getD RDefault.dflt).val) [ZMOD 2 ^ τ.bits]) := by
  obtain ⟨h1, h2, h3⟩ := C87_sparse op_zero_int ok hax hn hm
  refine ⟨h1, h2, fun i => ⟨(h3 i).1, fun hc => (value_checked hc _ e (h3 i).2).2, fun hc => ?_⟩⟩
  obtain ⟨v, v1, v2⟩ := value_release hc (fun j => ((hs j).valueAtIndex i).getD RDefault.dflt) e hn
  rw [(h3 i).2] at v1
  cases v1
  exact v2

/-- **C87 (laws, sparse).** Two expressions with `+`, `-`, `*` that are equal in school arithmetic give the same value in every bin, a missing bin counting as 0. -/
theorem C87_laws_sparse {τ : IntTy} {hs : Nat → HashHistogram A (MInt τ)} (ok : ∀ j, (hs j).Ok n) (hax : ∀ j, (hs j).axes = axes) {e e' : HExpr (MInt τ)} (hn : e.NoDiv) (hn' : e'.NoDiv)
    (heq : ∀ x : Nat → ℤ, e.inInt x = e'.inInt x) {m m' : HashHistogram A (MInt τ)} (hm : e.EvalSparse hs m) (hm' : e'.EvalSparse hs m') :
    m.axes = m'.axes ∧ ∀ i, (m.valueAtIndex i).getD RDefault.dflt = (m'.valueAtIndex i).getD RDefault.dflt := by
  obtain ⟨-, a2, a3⟩ := C87_sparse_int ok hax hn hm
  obtain ⟨-, b2, b3⟩ := C87_sparse_int ok hax hn' hm'
  refine ⟨a2.trans b2.symm, fun i => MInt.ext ?_⟩
  obtain ⟨-, p, q⟩ := a3 i
  obtain ⟨-, p', q'⟩ := b3 i
  cases hc : Cfg.checked with
  | true => rw [p hc, p' hc, heq]
  | false =>
    have := q hc
    rw [heq] at this
    exact MInt.eq_of_modEq (this.trans (q' hc).symm) ⟨MInt.min_le _, MInt.le_max _⟩

/-- **C87 (sparse, integers, panics).** Each step of such a computation returns, whatever the order of the hash maps, if there are no overflow checks or if all results fit. -/
theorem C87_sparse_returns {τ : IntTy} (hrefl : PEq.peq axes axes = true) {hs : Nat → HashHistogram A (MInt τ)} (ok : ∀ j, (hs j).Ok n) (hax : ∀ j, (hs j).axes = axes)
    {o : Op} {l r : HExpr (MInt τ)} (hn : (HExpr.op o l r).NoDiv) {a b : HashHistogram A (MInt τ)} (ha : l.EvalSparse hs a) (hb : r.EvalSparse hs b)
    (hfit : Cfg.checked = true → ∀ i, (HExpr.op o l r).Fits fun j => (((hs j).valueAtIndex i).getD RDefault.dflt).val) (ko : HashHistogram.KeyOrder a b) :
    ∃ m, a.opBorrow o b ko = .ok (.ok m) := by
  obtain ⟨d1, d2, d3⟩ := hn
  obtain ⟨a1, a2, a3⟩ := C87_sparse op_zero_int ok hax d2 ha
  obtain ⟨b1, b2, b3⟩ := C87_sparse op_zero_int ok hax d3 hb
  rw [(C35_sparse_exact o a1 b1 (by rw [a2, b2]; exact hrefl) ko ⟨_, List.Perm.refl _⟩).1]
  intro i _
  obtain ⟨v, hv⟩ : ∃ v, (HExpr.op o l r).value (fun j => ((hs j).valueAtIndex i).getD RDefault.dflt) = .ok v := by
    cases hc : Cfg.checked with
    | true => obtain ⟨v, hv, -⟩ := value_fits _ _ (hfit hc i); exact ⟨v, hv⟩
    | false => obtain ⟨v, hv, -⟩ := value_release hc (fun j => ((hs j).valueAtIndex i).getD RDefault.dflt) (HExpr.op o l r) ⟨d1, d2, d3⟩; exact ⟨v, hv⟩
  simp only [HExpr.value, (a3 i).2, (b3 i).2, bind, Except.bind] at hv
  exact ⟨v, hv⟩

/-- **C87 (sparse, floats).** With `+`, `-`, `*` of floats: a bin in which all results are floats in school arithmetic has the number of school arithmetic, a missing bin counting as 0. -/
theorem C87_sparse_float {F : FFmt} {hs : Nat → HashHistogram A (Flt F)} (ok : ∀ j, (hs j).Ok n) (hax : ∀ j, (hs j).axes = axes) {e : HExpr (Flt F)} (hn : e.NoDiv)
    {m : HashHistogram A (Flt F)} (hm : e.EvalSparse hs m) :
    m.Ok n ∧ m.axes = axes ∧ ∀ i, (m.valueAtIndex i ≠ none ↔ ∃ j, e.Uses j ∧ (hs j).valueAtIndex i ≠ none) ∧
      ((∀ j, e.Uses j → (((hs j).valueAtIndex i).getD RDefault.dflt).isFin) → (e.Exact fun j => (((hs j).valueAtIndex i).getD RDefault.dflt).val) →
        ((m.valueAtIndex i).getD RDefault.dflt).isFin ∧ ((m.valueAtIndex i).getD RDefault.dflt).val = e.inRat fun j => (((hs j).valueAtIndex i).getD RDefault.dflt).val) := by
  have h0 : ∀ o, o ≠ .div → ROps.op o (RDefault.dflt : Flt F) RDefault.dflt = .ok RDefault.dflt := by
    intro o ho
    have e : ∀ s : Bool, Flt.sval s 0 = (0 : ℚ) := by intro s; cases s <;> simp [Flt.sval]
    cases o with
    | add => exact congrArg Except.ok (by show Flt.add (Flt.zero false) (Flt.zero false) = Flt.zero false; simp [Flt.add, Flt.zero, e])
    | sub => exact congrArg Except.ok (by show Flt.sub (Flt.zero false) (Flt.zero false) = Flt.zero false; simp [Flt.sub, Flt.neg, Flt.add, Flt.zero, e])
    | mul =>
      refine congrArg Except.ok ?_
      show Flt.mul (Flt.zero false) (Flt.zero false) = Flt.zero false
      simp only [Flt.mul, Flt.zero, mul_zero]
      simp [Flt.round, F.rnd_zero, F.maxFin_pos.le]
    | div => exact absurd rfl ho
  obtain ⟨h1, h2, h3⟩ := C87_sparse h0 ok hax hn hm
  refine ⟨h1, h2, fun i => ⟨(h3 i).1, fun hf he => ?_⟩⟩
  obtain ⟨v, v1, v2, v3⟩ := value_exact _ e hf he
  rw [(h3 i).2] at v1
  cases v1
  exact ⟨v2, v3⟩
end

/-! ## What does not hold -/

section
attribute [local instance] dbg64 numPEq

/-- **C87**: sparse histograms satisfy the laws only up to bins with 0: `&(&(&a + &b)? - &b)? == a` is false if `b` has a bin that `a` does not have (while the same dense histograms are equal by `C87_laws`). -/
theorem C87_counterexample_sparse : ∃ (hs : Nat → HashHistogram (CategoryNoFlow String) (MInt .u8)) (m : HashHistogram (CategoryNoFlow String) (MInt .u8)),
    (∀ j, (hs j).Ok 2) ∧ (∀ j, (hs j).axes = exAxis) ∧ HExpr.EvalSparse hs (.op .sub (.op .add (.var 0) (.var 1)) (.var 1)) m ∧
      m.beq (hs 0) = false ∧ (hs 0).valueAtIndex 1 = none ∧ m.valueAtIndex 1 = some (.lit 0) := by
  refine ⟨fun j => if j = 0 then ⟨exAxis, ⟨[(0, .lit 1)]⟩⟩ else ⟨exAxis, ⟨[(1, .lit 7)]⟩⟩, ⟨exAxis, ⟨[(0, .lit 1), (1, .lit 0)]⟩⟩, fun j => ?_, fun j => ?_,
    .op (a := ⟨exAxis, ⟨[(0, .lit 1), (1, .lit 7)]⟩⟩) (b := ⟨exAxis, ⟨[(1, .lit 7)]⟩⟩) ⟨[0, 1], by decide, fun k => by simp [HMap.keys]⟩
      (.op (a := ⟨exAxis, ⟨[(0, .lit 1)]⟩⟩) (b := ⟨exAxis, ⟨[(1, .lit 7)]⟩⟩) ⟨[0, 1], by decide, fun k => by simp [HMap.keys]⟩ (.var 0) (.var 1) rfl) (.var 1) rfl, by decide +kernel, by decide +kernel, by decide +kernel⟩
  · by_cases h : j = 0
    · simp only [h]; exact ⟨exAxis_lawful, by unfold HMap.NodupKeys; decide, by decide⟩
    · simp only [h]; exact ⟨exAxis_lawful, by unfold HMap.NodupKeys; decide, by decide⟩
  · by_cases h : j = 0 <;> simp [h]
end
end NdHist
