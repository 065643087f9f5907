import Verif.Model.Reduce
import Verif.Props.Parallel
import Verif.Props.SparseFill
import Verif.Props.BadWeights
import Verif.Props.FloatExact
/-!
# C80: parallel sums and reductions over a histogram
-/
namespace NdHist
open RNum

/-! ## Reductions with an associative operation -/

section
variable {α β : Type}

theorem foldSeq_append (f : α → Res β) (op : β → β → Res β) (id : β) (l r : List α) :
    foldSeq f op id (l ++ r) = (do let a ← foldSeq f op id l; foldSeq f op a r) := by
  simp [foldSeq, List.foldlM_append]

theorem foldSeq_monoid [Monoid β] (f : α → Res β) (b : β) (l : List α) :
    foldSeq f (fun a b => .ok (a * b)) b l = (do let ys ← l.mapM f; pure (b * ys.prod)) := by
  induction l generalizing b with
  | nil => simp [foldSeq, pure, Except.pure, bind, Except.bind]
  | cons x l ih =>
    simp only [foldSeq, List.foldlM_cons, List.mapM_cons] at ih ⊢
    cases f x with
    | error p => rfl
    | ok y =>
      simp only [bind, Except.bind] at ih ⊢
      rw [ih]
      cases l.mapM f with
      | error p => rfl
      | ok ys => simp [pure, Except.pure, mul_assoc]

theorem mapM_append_res (f : α → Res β) (l r : List α) : (l ++ r).mapM f = (do let a ← l.mapM f; let b ← r.mapM f; pure (a ++ b)) := by
  rw [List.mapM_append]

/-- however the items are divided -/
theorem Split.reduce_monoid [Monoid β] (f : α → Res β) (s : Split α) :
    s.reduce f (fun a b => .ok (a * b)) 1 = (do let ys ← s.items.mapM f; pure ys.prod) := by
  induction s with
  | part l => exact (foldSeq_monoid f 1 l).trans (by simp; rfl)
  | join l r ihl ihr =>
    simp only [Split.reduce, Split.items, ihl, ihr, mapM_append_res]
    cases l.items.mapM f with
    | error p => rfl
    | ok a =>
      cases r.items.mapM f with
      | error p => rfl
      | ok b => simp [bind, Except.bind, pure, Except.pure]

theorem mapM_ok_iff {f : α → Res β} {l : List α} : (∃ ys, l.mapM f = .ok ys) ↔ ∀ x ∈ l, ∃ y, f x = .ok y := by
  induction l with
  | nil => simp [pure, Except.pure]
  | cons x l ih =>
    rw [List.mapM_cons]
    cases hx : f x with
    | error p => simp [hx, bind, Except.bind]
    | ok y =>
      simp only [bind, Except.bind, pure, Except.pure, List.forall_mem_cons, hx]
      rw [← ih]
      cases l.mapM f <;> simp

theorem mapM_perm {f : α → Res β} {l r : List α} (h : l.Perm r) {ys : List β} (hl : l.mapM f = .ok ys) : ∃ zs, r.mapM f = .ok zs ∧ ys.Perm zs := by
  induction h generalizing ys with
  | nil => exact ⟨ys, hl, .refl _⟩
  | cons x _ ih =>
    rw [List.mapM_cons] at hl ⊢
    cases hx : f x with
    | error p => rw [hx] at hl; cases hl
    | ok y =>
      rw [hx] at hl
      rename_i l₁ l₂ _
      cases h1 : l₁.mapM f with
      | error p => rw [h1] at hl; cases hl
      | ok a =>
        rw [h1] at hl
        obtain ⟨b, hb, hp⟩ := ih h1
        cases hl
        exact ⟨y :: b, by rw [hb]; rfl, hp.cons y⟩
  | swap x x' l =>
    simp only [List.mapM_cons] at hl ⊢
    cases hx : f x with
    | error p => rw [hx] at hl; cases hy : f x' <;> rw [hy] at hl <;> cases hl
    | ok y =>
      cases hx' : f x' with
      | error p => rw [hx'] at hl; cases hl
      | ok y' =>
        rw [hx, hx'] at hl
        cases h1 : l.mapM f with
        | error p => rw [h1] at hl; cases hl
        | ok a =>
          rw [h1] at hl
          cases hl
          exact ⟨y :: y' :: a, rfl, .swap _ _ _⟩
  | trans _ _ ih1 ih2 =>
    obtain ⟨a, ha, p1⟩ := ih1 hl
    obtain ⟨b, hb, p2⟩ := ih2 ha
    exact ⟨b, hb, p1.trans p2⟩
end

section
variable [cfg : Cfg] {A V : Type} [Axis A] {β : Type}

/-- **C80 (dense).** `par_iter().map(f).reduce(|| 1, *)` with an associative `*` and its identity: however rayon divides the work, the result, or panic, is that of
`iter().map(f).fold(1, *)`. -/
theorem C80_reduce [Monoid β] {h : VecHistogram A V} {n : Nat} (ok : h.Ok n) (f : Item (Axis.Interval A) V → Res β)
    (s : Split (Res (Item (Axis.Interval A) V))) (hs : s.items = h.parIter) :
    s.reduce (fun it => it >>= f) (fun a b => .ok (a * b)) 1 = (h.iter >>= foldSeq f (fun a b => .ok (a * b)) 1) := by
  obtain ⟨items, h1, h2, -⟩ := C39_par_iter ok
  rw [Split.reduce_monoid, hs, h2, h1, List.mapM_map]
  show _ = foldSeq _ _ _ _
  rw [foldSeq_monoid]
  simp only [one_mul]
  rfl

/-- **C80 (sparse).** The same for sparse histograms if `*` is also commutative: the result does not depend on the division, nor on the order in which the map yields
its entries, nor does it depend on them whether there is a panic. -/
theorem C80_reduce_sparse [CommMonoid β] {h : HashHistogram A V} {n : Nat} (ok : h.Ok n) (o o' : h.values.Order) (f : Item (Axis.Interval A) V → Res β)
    (s : Split (Res (Item (Axis.Interval A) V))) (hs : s.items = h.parIter o) (x : β) :
    s.reduce (fun it => it >>= f) (fun a b => .ok (a * b)) 1 = .ok x ↔ (h.iter o' >>= foldSeq f (fun a b => .ok (a * b)) 1) = .ok x := by
  obtain ⟨items, h1, h2⟩ := C39_par_iter_sparse ok o
  obtain ⟨items', h1', h2'⟩ := C39_par_iter_sparse ok o'
  have hp : items.Perm items' := by
    have : (items.map Except.ok : List (Res (Item (Axis.Interval A) V))).Perm (items'.map Except.ok) := by
      rw [← h2, ← h2']
      exact (o.perm.trans o'.perm.symm).map _
    have inj : Function.Injective (Except.ok : Item (Axis.Interval A) V → Res _) := fun a b h => Except.ok.inj h
    exact (List.map_perm_map_iff inj).1 this
  rw [Split.reduce_monoid, hs, h2, h1', List.mapM_map]
  show _ ↔ foldSeq _ _ _ _ = _
  rw [foldSeq_monoid]
  simp only [one_mul]
  show (do let ys ← items.mapM f; pure ys.prod) = Except.ok x ↔ _
  have one : ∀ {a b : List (Item (Axis.Interval A) V)}, a.Perm b → ((do let ys ← a.mapM f; pure ys.prod) : Res β) = .ok x → ((do let ys ← b.mapM f; pure ys.prod) : Res β) = .ok x := by
    intro a b hab ha
    cases hm : a.mapM f with
    | error p => rw [hm] at ha; cases ha
    | ok ys =>
      rw [hm] at ha
      obtain ⟨zs, z1, z2⟩ := mapM_perm hab hm
      rw [z1]
      cases ha
      simp [bind, Except.bind, pure, Except.pure, z2.prod_eq]
  exact ⟨one hp, one hp.symm⟩
end

/-! ## Sums -/

section
variable [cfg : Cfg] {T : Type} [RNum T]

/-- `par_values().sum()`, the values divided as `s` -/
def Split.sum (s : Split T) : Res T := s.reduce .ok RNum.add RNum.zero

/-- the sum of a list, one after another, beginning with `b` -/
def sumFrom (b : T) (l : List T) : Res T := foldSeq .ok RNum.add b l

theorem sumFrom_cons (b x : T) (l : List T) :
    sumFrom b (x :: l) = (RNum.add b x >>= fun c => sumFrom c l) := by
  simp only [sumFrom, foldSeq, List.foldlM_cons]
  rfl

variable {val : T → ℤ} {N : ℤ}

theorem AddsModulo.sumFrom (hT : AddsModulo val N) (b : T) (l : List T) : ∃ v, sumFrom b l = .ok v ∧ val v ≡ val b + (l.map val).sum [ZMOD N] := by
  induction l generalizing b with
  | nil => exact ⟨b, rfl, by simpa using Int.ModEq.refl _⟩
  | cons x l ih =>
    obtain ⟨c, c1, c2⟩ := hT.add b x
    obtain ⟨v, v1, v2⟩ := ih c
    refine ⟨v, by rw [sumFrom_cons, c1]; exact v1, ?_⟩
    rw [List.map_cons, List.sum_cons, ← add_assoc]
    exact v2.trans (c2.add_right _)

/-- **C80 (sums modulo `N`).** If the values are added modulo `N`, the parallel sum never panics and is the sum of the values modulo `N`, however they are divided. -/
theorem C80_modulo_sum (hT : AddsModulo val N) (s : Split T) : ∃ v, s.sum = .ok v ∧ val v ≡ (s.items.map val).sum [ZMOD N] := by
  unfold Split.sum
  induction s with
  | part l =>
    obtain ⟨v, v1, v2⟩ := hT.sumFrom RNum.zero l
    exact ⟨v, v1, by rw [hT.zero, zero_add] at v2; exact v2⟩
  | join l r ihl ihr =>
    obtain ⟨a, a1, a2⟩ := ihl
    obtain ⟨b, b1, b2⟩ := ihr
    obtain ⟨c, c1, c2⟩ := hT.add a b
    refine ⟨c, by simp only [Split.reduce, a1, b1]; exact c1, ?_⟩
    rw [Split.items, List.map_append, List.sum_append]
    exact c2.trans (a2.add b2)
end

section
variable [cfg : Cfg] {τ : IntTy}

omit cfg in
theorem int_sum_nonpos {l : List ℤ} (h : ∀ x ∈ l, x ≤ 0) : l.sum ≤ 0 := by
  induction l with
  | nil => simp
  | cons x l ih =>
    rw [List.sum_cons]
    have := h x (.head _); have := ih fun y hy => h y (.tail _ hy)
    omega

theorem MInt.add_cases (hc : Cfg.checked = true) (a b : MInt τ) :
    (InRange τ (a.val + b.val) ∧ ∃ c : MInt τ, @RNum.add (MInt τ) cfg _ a b = .ok c ∧ c.val = a.val + b.val) ∨ (¬ InRange τ (a.val + b.val) ∧ @RNum.add (MInt τ) cfg _ a b = .error .overflow) := by
  by_cases h : InRange τ (a.val + b.val)
  · exact .inl ⟨h, ⟨_, h.1, h.2⟩, by rw [MInt.add_def]; exact dif_pos h, rfl⟩
  · exact .inr ⟨h, by rw [MInt.add_def]; exact MInt.arith_none hc h⟩

/-- **C80 (checked integers).** In a build with overflow checks the parallel sum of integers, however divided, is the exact sum or an overflow panic; and the exact sum for certain
if all values have the same sign and it fits. -/
theorem C80_checked_sum (hc : Cfg.checked = true) (s : Split (MInt τ)) :
    ((∃ v, s.sum = .ok v ∧ v.val = (s.items.map MInt.val).sum) ∨ s.sum = .error .overflow) ∧
    ((∀ v ∈ s.items, 0 ≤ v.val) ∨ (∀ v ∈ s.items, v.val ≤ 0) → InRange τ (s.items.map MInt.val).sum → ∃ v, s.sum = .ok v) := by
  have z : (@RNum.zero (MInt τ) cfg _).val = 0 := rfl
  have fold : ∀ (l : List (MInt τ)) (b : MInt τ), ((∃ v, sumFrom b l = .ok v ∧ v.val = b.val + (l.map MInt.val).sum) ∨ sumFrom b l = .error .overflow) ∧
      ((∀ v ∈ l, 0 ≤ v.val) ∨ (∀ v ∈ l, v.val ≤ 0) → InRange τ (b.val + (l.map MInt.val).sum) → ∃ v, sumFrom b l = .ok v) := by
    intro l
    induction l with
    | nil => exact fun b => ⟨.inl ⟨b, rfl, by simp⟩, fun _ _ => ⟨b, rfl⟩⟩
    | cons x l ih =>
      intro b
      rw [sumFrom_cons]
      rcases MInt.add_cases hc b x with ⟨h, c, c1, c2⟩ | ⟨h, h1⟩
      · rw [c1]
        obtain ⟨i1, i2⟩ := ih c
        rw [c2] at i1 i2
        refine ⟨?_, fun hs hr => i2 (hs.imp (fun h v hv => h v (.tail _ hv)) (fun h v hv => h v (.tail _ hv))) ?_⟩
        · simpa [add_assoc] using i1
        · simpa [add_assoc] using hr
      · rw [h1]
        refine ⟨.inr rfl, fun hs hr => absurd ?_ h⟩
        rw [List.map_cons, List.sum_cons] at hr
        have b1 := b.min_le; have b2 := b.le_max
        obtain ⟨r1, r2⟩ := hr
        rcases hs with hs | hs
        · have : 0 ≤ (l.map MInt.val).sum := List.sum_nonneg (by
            intro x hx; obtain ⟨v, hv, rfl⟩ := List.mem_map.1 hx; exact hs v (.tail _ hv))
          have := hs x (.head _)
          exact ⟨by omega, by omega⟩
        · have : (l.map MInt.val).sum ≤ 0 := int_sum_nonpos (by
            intro x hx; obtain ⟨v, hv, rfl⟩ := List.mem_map.1 hx; exact hs v (.tail _ hv))
          have := hs x (.head _)
          exact ⟨by omega, by omega⟩
  unfold Split.sum
  induction s with
  | part l =>
    have := fold l (@RNum.zero (MInt τ) cfg _)
    rw [z, zero_add] at this
    exact this
  | join l r ihl ihr =>
    simp only [Split.reduce, Split.items, List.map_append, List.sum_append, List.mem_append]
    rcases ihl.1 with ⟨a, a1, a2⟩ | a1
    · rcases ihr.1 with ⟨b, b1, b2⟩ | b1
      · rw [a1, b1, ← a2, ← b2]
        rcases MInt.add_cases hc a b with ⟨h, c, c1, c2⟩ | ⟨h, h1⟩
        · exact ⟨.inl ⟨c, c1, c2⟩, fun _ _ => ⟨c, c1⟩⟩
        · exact ⟨.inr h1, fun _ hr => absurd hr h⟩
      · rw [a1, b1]
        refine ⟨.inr rfl, fun hs hr => ?_⟩
        rw [← a2] at hr
        have ha1 := a.min_le; have ha2 := a.le_max
        have hm : τ.min ≤ 0 ∧ 0 ≤ τ.max := ⟨(@RNum.zero (MInt τ) cfg _).min_le, (@RNum.zero (MInt τ) cfg _).le_max⟩
        obtain ⟨v, hv⟩ := ihr.2 (hs.imp (fun h v hv => h v (.inr hv)) (fun h v hv => h v (.inr hv))) (by
          obtain ⟨r1, r2⟩ := hr
          rcases hs with hs | hs
          · have h1 : 0 ≤ a.val := by rw [a2]; exact List.sum_nonneg (by
              intro x hx; obtain ⟨v, hv, rfl⟩ := List.mem_map.1 hx; exact hs v (.inl hv))
            have h2 : 0 ≤ (r.items.map MInt.val).sum := List.sum_nonneg (by
              intro x hx; obtain ⟨v, hv, rfl⟩ := List.mem_map.1 hx; exact hs v (.inr hv))
            exact ⟨by omega, by omega⟩
          · have h1 : a.val ≤ 0 := by rw [a2]; exact int_sum_nonpos (by
              intro x hx; obtain ⟨v, hv, rfl⟩ := List.mem_map.1 hx; exact hs v (.inl hv))
            have h2 : (r.items.map MInt.val).sum ≤ 0 := int_sum_nonpos (by
              intro x hx; obtain ⟨v, hv, rfl⟩ := List.mem_map.1 hx; exact hs v (.inr hv))
            exact ⟨by omega, by omega⟩)
        rw [hv] at b1; cases b1
    · rw [a1]
      refine ⟨.inr rfl, fun hs hr => ?_⟩
      have hm : τ.min ≤ 0 ∧ 0 ≤ τ.max := ⟨(@RNum.zero (MInt τ) cfg _).min_le, (@RNum.zero (MInt τ) cfg _).le_max⟩
      obtain ⟨v, hv⟩ := ihl.2 (hs.imp (fun h v hv => h v (.inl hv)) (fun h v hv => h v (.inl hv))) (by
        obtain ⟨r1, r2⟩ := hr
        rcases hs with hs | hs
        · have h1 : 0 ≤ (l.items.map MInt.val).sum := List.sum_nonneg (by
            intro x hx; obtain ⟨v, hv, rfl⟩ := List.mem_map.1 hx; exact hs v (.inl hv))
          have h2 : 0 ≤ (r.items.map MInt.val).sum := List.sum_nonneg (by
            intro x hx; obtain ⟨v, hv, rfl⟩ := List.mem_map.1 hx; exact hs v (.inr hv))
          exact ⟨by omega, by omega⟩
        · have h1 : (l.items.map MInt.val).sum ≤ 0 := int_sum_nonpos (by
            intro x hx; obtain ⟨v, hv, rfl⟩ := List.mem_map.1 hx; exact hs v (.inl hv))
          have h2 : (r.items.map MInt.val).sum ≤ 0 := int_sum_nonpos (by
            intro x hx; obtain ⟨v, hv, rfl⟩ := List.mem_map.1 hx; exact hs v (.inr hv))
          exact ⟨by omega, by omega⟩)
      rw [hv] at a1; cases a1
end

section
variable [cfg : Cfg] {F : FFmt} {e : ℤ}

theorem foldSeq_flt (b : Flt F) (l : List (Flt F)) : sumFrom b l = .ok (l.foldl Flt.add b) := by
  induction l generalizing b with
  | nil => rfl
  | cons x l ih => rw [sumFrom_cons]; exact ih _

/-- **C80 (floats).** The parallel sum of floats never panics and is a float sum (`SumOf`) of the values, with at most as many roundings in a row as the division is deep. -/
theorem C80_float_sum (s : Split (Flt F)) : ∃ v, s.sum = .ok v ∧ SumOf s.depth v s.items := by
  unfold Split.sum
  induction s with
  | part l =>
    refine ⟨_, foldSeq_flt _ l, ?_⟩
    exact (sumOf_foldl false l).mono (Nat.sub_le _ _)
  | join l r ihl ihr =>
    obtain ⟨a, a1, a2⟩ := ihl
    obtain ⟨b, b1, b2⟩ := ihr
    exact ⟨Flt.add a b, by simp only [Split.reduce, a1, b1]; rfl, a2.add b2⟩

/-- **C80 (floats, exact).** If the values are multiples of `2^e` whose absolute values add up to at most `2^(e+p)` the parallel sum is exact, so it does not depend on the division. -/
theorem C80_float_exact (he : F.qmin ≤ e ∧ e + F.p ≤ F.emax) (s : Split (Flt F)) (hfin : ∀ v ∈ s.items, v.isFin) (hg : ∀ v ∈ s.items, OnGrid e v.val)
    (hb : (s.items.map fun v => |v.val|).sum ≤ (2 : ℚ) ^ (e + F.p)) :
    ∃ v, s.sum = .ok v ∧ v.isFin ∧ v.val = (s.items.map Flt.val).sum := by
  unfold Split.sum
  induction s with
  | part l =>
    have z : (Flt.zero false : Flt F).val = 0 := by simp [Flt.zero, Flt.val, Flt.sval]
    have := foldl_grid (F := F) (e := e) (fun v : Flt F => v) he.1 he.2 l hfin hg (v := Flt.zero false) trivial (by rw [z]; exact OnGrid.zero)
      (by rw [z, abs_zero, zero_add]; exact hb)
    rw [z, zero_add] at this
    exact ⟨_, foldSeq_flt _ l, this⟩
  | join l r ihl ihr =>
    simp only [Split.items, List.mem_append, List.map_append, List.sum_append] at hfin hg hb ⊢
    have n1 : 0 ≤ (l.items.map fun v => |v.val|).sum := sum_abs_nonneg _
    have n2 : 0 ≤ (r.items.map fun v => |v.val|).sum := sum_abs_nonneg _
    obtain ⟨a, a1, a2, a3⟩ := ihl (fun v hv => hfin v (.inl hv)) (fun v hv => hg v (.inl hv)) (by linarith)
    obtain ⟨b, b1, b2, b3⟩ := ihr (fun v hv => hfin v (.inr hv)) (fun v hv => hg v (.inr hv)) (by linarith)
    have ab : ∀ l : List (Flt F), |(l.map Flt.val).sum| ≤ (l.map fun v => |v.val|).sum := by
      intro l
      induction l with
      | nil => simp
      | cons x l ih => simp only [List.map_cons, List.sum_cons]; exact (abs_add_le _ _).trans (add_le_add le_rfl ih)
    have ga := OnGrid.sum (f := Flt.val) (l := l.items) (e := e) fun v hv => hg v (.inl hv)
    have gb := OnGrid.sum (f := Flt.val) (l := r.items) (e := e) fun v hv => hg v (.inr hv)
    obtain ⟨g1, g2⟩ := Flt.add_grid he.1 he.2 a2 b2 (e := e) (by rw [a3, b3]; exact ga.add gb) (by
      rw [a3, b3]
      exact (abs_add_le _ _).trans ((add_le_add (ab _) (ab _)).trans hb))
    exact ⟨_, by simp only [Split.reduce, a1, b1]; rfl, g1, by rw [g2, a3, b3]⟩
end

/-! ## Totals of filled histograms -/

section
variable [cfg : Cfg] {A V : Type} [Axis A]

theorem SameFilled.sum [RDefault V] {n : Nat} {d : VecHistogram A V} {s : HashHistogram A V} (h : SameFilled n d s) {M : Type} [AddCommMonoid M] (μ : V → M)
    (h0 : μ RDefault.dflt = 0) (o : s.values.Order) : ((s.valuesIter o).map μ).sum = (d.values.map μ).sum := by
  classical
  have e1 : (d.values.map μ).sum = ((List.range n).map fun i => μ ((s.valueAtIndex i).getD RDefault.dflt)).sum := by
    congr 1
    apply List.ext_getElem?
    intro i
    by_cases hi : i < n
    · have := h.val i hi
      simp only [List.getElem?_map]
      rw [show d.values[i]? = d.valueAtIndex i from rfl, this]
      simp [hi]
    · have hl : d.values.length = n := h.okd.size
      rw [List.getElem?_eq_none (by simp; omega), List.getElem?_eq_none (by simp; omega)]
  have hkeys : (o.list.map (·.1)).Nodup := ((o.perm.map _).nodup_iff).2 h.oks.nodup
  have e2 : (s.valuesIter o).map μ = (o.list.map (·.1)).map fun i => μ ((s.valueAtIndex i).getD RDefault.dflt) := by
    rw [List.map_map]
    show (o.list.map (·.2)).map μ = _
    rw [List.map_map]
    refine List.map_congr_left fun kv hkv => ?_
    have : s.valueAtIndex kv.1 = some kv.2 := (HMap.mem_entries_iff h.oks.nodup _ _).1 (o.perm.mem_iff.1 hkv)
    simp [this]
  have hperm : (o.list.map (·.1)).Perm ((List.range n).filter fun i => i ∈ o.list.map (·.1)) := by
    refine (List.perm_ext_iff_of_nodup hkeys (List.nodup_range.filter _)).2 fun i => ?_
    rw [List.mem_filter, List.mem_range, decide_eq_true_iff]
    refine ⟨fun hi => ⟨h.oks.valid _ ?_, hi⟩, fun hi => hi.2⟩
    exact (o.perm.map _).mem_iff.1 hi
  rw [e1, e2, (hperm.map _).sum_eq]
  generalize List.range n = l
  induction l with
  | nil => simp
  | cons i l ih =>
    by_cases hi : i ∈ o.list.map (·.1)
    · rw [List.filter_cons_of_pos (by simpa using hi)]
      simp only [List.map_cons, List.sum_cons, ih]
    · rw [List.filter_cons_of_neg (by simpa using hi)]
      have hn : s.valueAtIndex i = none := by
        cases hv : s.valueAtIndex i with
        | none => rfl
        | some v =>
          refine absurd (List.mem_map.2 ⟨(i, v), ?_, rfl⟩) hi
          exact o.perm.mem_iff.2 ((HMap.mem_entries_iff h.oks.nodup _ _).2 hv)
      simp only [List.map_cons, List.sum_cons, ih, hn, Option.getD_none, h0, zero_add]

/-- **C30 (sparse).** After any program of fills, whether it ends or panics, the values of a sparse histogram add up to what those of the dense one add up to. -/
theorem C30_sparse [RDefault V] {M : Type} [AddCommMonoid M] (μ : V → M) (h0 : μ RDefault.dflt = 0) {axes : A} {n : Nat} (hl : LawfulAxis axes n) {d : VecHistogram A V}
    (hnew : VecHistogram.new axes = .ok d) (calls : List (Call V (Axis.Coordinate A))) (o : ((HashHistogram.new axes : HashHistogram A V).callAll calls).1.values.Order) :
    ((((HashHistogram.new axes : HashHistogram A V).callAll calls).1.valuesIter o).map μ).sum = ((d.callAll calls).1.valuesIter.map μ).sum :=
  ((SameFilled.new hl hnew).callAll calls).1.sum μ h0 o
end

section
variable [cfg : Cfg] {A : Type} [Axis A] {axes : A} {n : Nat} {covers : Axis.Interval A → Axis.Coordinate A → Prop} {dom : Axis.Coordinate A → Prop} {τ : IntTy}

/-- some bin contains the coordinate -/
def InSomeBin (axes : A) (n : Nat) (covers : Axis.Interval A → Axis.Coordinate A → Prop) (c : Axis.Coordinate A) : Prop :=
  ∃ i b, i < n ∧ Axis.bin axes i = .ok (some b) ∧ covers b c

open Classical in
theorem count_values (hc : Cfg.checked = true) (hf : FaithfulAxis axes n covers dom) {h h' : VecHistogram A (MInt τ)} (hnew : VecHistogram.new axes = .ok h)
    {cs : List (Axis.Coordinate A)} (hd : ∀ c ∈ cs, dom c) (hr : h.callAll (cs.map .fill) = (h', none)) :
    (h'.values.map MInt.val).sum = cs.countP (InSomeBin axes n covers) ∧ ∀ v ∈ h'.values, 0 ≤ v.val := by
  have ecalls : (cs.map .fill : List (Call (MInt τ) (Axis.Coordinate A))) = numCalls (cs.map fun c => (c, none)) := by
    simp [numCalls, List.map_map, Function.comp_def]
  have hr' : h.callAll (numCalls (cs.map fun c => (c, none))) = (h', none) := by rw [← ecalls]; exact hr
  have hd' : ∀ cw ∈ cs.map fun c => (c, (none : Option (MInt τ))), dom cw.1 := by
    intro cw hm
    obtain ⟨c, h1, rfl⟩ := List.mem_map.1 hm
    exact hd c h1
  have ones : ∀ l : List (Axis.Coordinate A), (l.map fun c => weightOf MInt.val (c, (none : Option (MInt τ)))).sum = l.length := by
    intro l
    induction l with
    | nil => rfl
    | cons c l ih => rw [List.map_cons, List.sum_cons, ih, List.length_cons]; simp [weightOf]; ring
  constructor
  · have := C30_conservation MInt.val callWeight (calls := cs.map .fill) (fun call hm => (callWeight_adds hc (cs.map fun c => (c, none)) call (by rw [← ecalls]; exact hm)).on)
      rfl hf.lawful hnew hr
    rw [this]
    have ef : callsCovered axes (cs.map .fill : List (Call (MInt τ) (Axis.Coordinate A))) = numCalls ((cs.filter fun c => decide (InSomeBin axes n covers c)).map fun c => (c, none)) := by
      unfold callsCovered
      rw [List.filter_map]
      have e2 : numCalls ((cs.filter fun c => decide (InSomeBin axes n covers c)).map fun c => (c, (none : Option (MInt τ)))) =
          (cs.filter fun c => decide (InSomeBin axes n covers c)).map .fill := by simp [numCalls, List.map_map, Function.comp_def]
      rw [e2]
      refine congrArg (List.map _) (List.filter_congr ?_)
      intro c hm
      have hdc := hd c hm
      simp only [Function.comp, Call.coord]
      have key : InSomeBin axes n covers c ↔ ∃ i, Axis.index axes c = .ok (some i) := by
        constructor
        · rintro ⟨i, b, h1, h2, h3⟩
          exact ⟨i, (hf.index_iff c hdc i b h1 h2).2 h3⟩
        · rintro ⟨i, hi⟩
          have hin := hf.lawful.index_lt _ _ hi
          obtain ⟨b, hb⟩ := hf.lawful.bin_some i hin
          exact ⟨i, b, hin, hb, (hf.index_iff c hdc i b hin hb).1 hi⟩
      rw [eq_comm]
      split
      · next i hi => exact decide_eq_true (key.2 ⟨i, hi⟩)
      · next hne => exact decide_eq_false fun h => by obtain ⟨i, hi⟩ := key.1 h; exact hne i hi
    rw [ef, callWeight_numCalls, List.map_map, List.countP_eq_length_filter]
    exact ones _
  · obtain ⟨h₁, p, pre, items, d1, d2, d3, d4, d5, d6, d7⟩ := C73_checked hc hf hnew _ hd'
    rw [hr'] at d1
    obtain ⟨rfl, rfl⟩ := Prod.mk.inj d1
    obtain ⟨-, rfl⟩ | ⟨hp, -⟩ := d7
    · intro v hv
      have hok : h'.Ok n := by
        have := VecHistogram.callAll_ok (h := h) (calls := cs.map .fill) (by rw [hr])
        rw [hr] at this
        rw [show h' = _ from this]
        exact (C28_dense hf.lawful hnew (cs.map .fill)).1
      obtain ⟨items', i1, -, -, i4⟩ := C38_iter hok
      rw [d3] at i1
      obtain rfl := Except.ok.inj i1
      have hv' : v ∈ h'.valuesIter := hv
      rw [i4] at hv'
      obtain ⟨it, hit, rfl⟩ := List.mem_map.1 hv'
      obtain ⟨k, hk, rfl⟩ := List.getElem_of_mem hit
      rw [(d5 k _ (List.getElem?_eq_getElem hk)).2.2]
      unfold totalIn
      refine List.sum_nonneg fun x hx => ?_
      obtain ⟨cw, hcw, rfl⟩ := List.mem_map.1 hx
      obtain ⟨c, -, rfl⟩ := List.mem_map.1 (List.mem_of_mem_filter hcw)
      simp [weightOf]
    · cases hp

open Classical in
/-- **C80 (totals of counts).** Fill a histogram of integers with `fill`, in a build with overflow checks. However the work is divided, the parallel sum of all bins is the number
of the coordinates that some bin contains, if that fits in the type, and an overflow panic if it does not. -/
theorem C80_counts (hc : Cfg.checked = true) (hf : FaithfulAxis axes n covers dom) {h h' : VecHistogram A (MInt τ)} (hnew : VecHistogram.new axes = .ok h)
    (cs : List (Axis.Coordinate A)) (hd : ∀ c ∈ cs, dom c) (hr : h.callAll (cs.map .fill) = (h', none)) (s : Split (MInt τ)) (hs : s.items = h'.parValues) :
    let total := cs.countP (InSomeBin axes n covers)
    ((total : ℤ) ≤ τ.max → ∃ v, s.sum = .ok v ∧ v.val = total) ∧ (τ.max < (total : ℤ) → s.sum = .error .overflow) := by
  obtain ⟨k1, k2⟩ := count_values hc hf hnew hd hr
  obtain ⟨c1, c2⟩ := C80_checked_sum hc s
  have e : (s.items.map MInt.val).sum = cs.countP (InSomeBin axes n covers) := by rw [hs]; exact k1
  rw [e] at c1 c2
  refine ⟨fun ht => ?_, fun ht => ?_⟩
  · obtain ⟨v, hv⟩ := c2 (.inl (by rw [hs]; exact k2)) ⟨by have := τ.min_le_zero; omega, ht⟩
    obtain ⟨w, w1, w2⟩ | h1 := c1
    · exact ⟨w, w1, w2⟩
    · rw [hv] at h1; cases h1
  · obtain ⟨w, w1, w2⟩ | h1 := c1
    · have := w.le_max; omega
    · exact h1

open Classical in
/-- **C80 (totals of counts, sparse).** The same for sparse histograms, whatever the order in which the map yields its entries. -/
theorem C80_counts_sparse (hc : Cfg.checked = true) (hf : FaithfulAxis axes n covers dom) {h' : HashHistogram A (MInt τ)}
    (cs : List (Axis.Coordinate A)) (hd : ∀ c ∈ cs, dom c) (hr : (HashHistogram.new axes : HashHistogram A (MInt τ)).callAll (cs.map .fill) = (h', none))
    (o : h'.values.Order) (s : Split (MInt τ)) (hs : s.items = h'.parValues o) :
    let total := cs.countP (InSomeBin axes n covers)
    ((total : ℤ) ≤ τ.max → ∃ v, s.sum = .ok v ∧ v.val = total) ∧ (τ.max < (total : ℤ) → s.sum = .error .overflow) := by
  obtain ⟨d, hnew, -⟩ := C26_new (V := MInt τ) hf.lawful
  obtain ⟨same, hp⟩ := (SameFilled.new hf.lawful hnew).callAll (cs.map .fill)
  rw [hr] at same hp
  obtain ⟨k1, k2⟩ := count_values hc hf hnew hd (Prod.ext rfl hp.symm : d.callAll (cs.map .fill) = (_, none))
  have hsum := same.sum MInt.val rfl o
  obtain ⟨c1, c2⟩ := C80_checked_sum hc s
  have e : (s.items.map MInt.val).sum = cs.countP (InSomeBin axes n covers) := by rw [hs, ← k1]; exact hsum
  have nn : ∀ v ∈ s.items, 0 ≤ v.val := by
    rw [hs]
    intro v hv
    obtain ⟨kv, hkv, rfl⟩ := List.mem_map.1 hv
    have h1 : h'.valueAtIndex kv.1 = some kv.2 := (HMap.mem_entries_iff same.oks.nodup _ _).1 (o.perm.mem_iff.1 hkv)
    have hi : kv.1 < n := same.oks.valid _ (List.mem_map.2 ⟨kv, o.perm.mem_iff.1 hkv, rfl⟩)
    have := same.val _ hi
    rw [h1] at this
    exact k2 _ (List.mem_of_getElem? this)
  rw [e] at c1 c2
  refine ⟨fun ht => ?_, fun ht => ?_⟩
  · obtain ⟨v, hv⟩ := c2 (.inl nn) ⟨by have := τ.min_le_zero; omega, ht⟩
    obtain ⟨w, w1, w2⟩ | h1 := c1
    · exact ⟨w, w1, w2⟩
    · rw [hv] at h1; cases h1
  · obtain ⟨w, w1, w2⟩ | h1 := c1
    · have := w.le_max; omega
    · exact h1
end

/-! ## The conditions are needed -/

section
attribute [local instance] dbg64

/-- **C80**: with values of both signs it depends on the division whether the sum overflows. -/
theorem C80_counterexample_signed : ∃ (s t : Split (MInt .i8)) (v : MInt .i8), s.items = t.items ∧ s.sum = .ok v ∧ t.sum = .error .overflow :=
  ⟨.join (.part [.lit 100]) (.part [.lit 70, .lit (-70)]), .part [.lit 100, .lit 70, .lit (-70)], .lit 100, rfl, rfl, rfl⟩

/-- **C80**: the parallel sum of floats depends on the division. -/
theorem C80_counterexample_float : ∃ (s t : Split F64) (v w : F64), s.items = t.items ∧ s.sum = .ok v ∧ t.sum = .ok w ∧ POrd.lt v w = true :=
  ⟨.join (.part [f64 0.1]) (.part [f64 0.2, f64 0.3]), .part [f64 0.1, f64 0.2, f64 0.3], _, _, rfl, rfl, rfl, by decide +kernel⟩
end
end NdHist
