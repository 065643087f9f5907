import Verif.SpecGrow
import Verif.Props.More
/-!
# C111: arithmetic with `+` and `*` respects the order of the contents
-/
namespace NdHist
open RNum

section
variable [cfg : Cfg] {A V : Type} [Axis A] [PEq A] {axes : A} {n : Nat}

omit [Axis A] [PEq A] cfg in
/-- an operation that grows with its operands, and panics for smaller ones only if it does for larger ones -/
def OpGrows [ROps V] (le : V → V → Prop) (o : Op) : Prop :=
  ∀ a a' b b' c' : V, le a a' → le b b' → ROps.op o a' b' = .ok c' → ∃ c, ROps.op o a b = .ok c ∧ le c c'

omit cfg in
theorem value_grows [ROps V] {le : V → V → Prop} {ops : Op → Prop} (hop : ∀ o, ops o → OpGrows le o) {e : HExpr V} (he : e.Only ops fun x => le x x)
    {x x' : Nat → V} (hx : ∀ j, e.Uses j → le (x j) (x' j)) {v' : V} (h : e.value x' = .ok v') : ∃ v, e.value x = .ok v ∧ le v v' := by
  induction e generalizing v' with
  | var j => cases h; exact ⟨_, rfl, hx j rfl⟩
  | op o l r ihl ihr =>
    obtain ⟨h1, h2, h3⟩ := he
    simp only [HExpr.value] at h ⊢
    cases hl : l.value x' with
    | error => rw [hl] at h; cases h
    | ok a' =>
      cases hr : r.value x' with
      | error => rw [hl, hr] at h; cases h
      | ok b' =>
        rw [hl, hr] at h
        obtain ⟨a, a1, a2⟩ := ihl h2 (fun j hj => hx j (.inl hj)) hl
        obtain ⟨b, b1, b2⟩ := ihr h3 (fun j hj => hx j (.inr hj)) hr
        obtain ⟨c, c1, c2⟩ := hop o h1 a a' b b' v' a2 b2 h
        exact ⟨c, by rw [a1, b1]; exact c1, c2⟩
  | scalar o e x ih =>
    obtain ⟨h1, h2, h3⟩ := he
    simp only [HExpr.value] at h ⊢
    cases hl : e.value x' with
    | error => rw [hl] at h; cases h
    | ok a' =>
      rw [hl] at h
      obtain ⟨a, a1, a2⟩ := ih h3 (fun j hj => hx j hj) hl
      obtain ⟨c, c1, c2⟩ := hop o h1 a a' _ _ v' a2 h2 h
      exact ⟨c, by rw [a1]; exact c1, c2⟩

/-- **C111 (any values).** Let `le` be a relation of values, and `e` an expression of operators that respect it, and numbers with `le x x`. If the program that computes `e` returns for some
histograms, then it returns for histograms whose bins are related to theirs, and so are the bins of the results. -/
theorem C111_dense [ROps V] [RDefault V] {le : V → V → Prop} {ops : Op → Prop} (hop : ∀ o, ops o → ∀ a a' b b' c' : V, le a a' → le b b' → ROps.op o a' b' = .ok c' → ∃ c, ROps.op o a b = .ok c ∧ le c c')
    (hrefl : PEq.peq axes axes = true) {hs hs' : Nat → VecHistogram A V} (ok : ∀ j, (hs j).Ok n) (ok' : ∀ j, (hs' j).Ok n) (hax : ∀ j, (hs j).axes = axes) (hax' : ∀ j, (hs' j).axes = axes)
    {e : HExpr V} (he : e.Only ops fun x => le x x)
    (hle : ∀ j, e.Uses j → ∀ i v v', (hs j).valueAtIndex i = some v → (hs' j).valueAtIndex i = some v' → le v v') {m' : VecHistogram A V} (hm : e.eval hs' = .ok (.ok m')) :
    ∃ m, e.eval hs = .ok (.ok m) ∧ m.axes = m'.axes ∧ ∀ i v, m.valueAtIndex i = some v → ∃ v', m'.valueAtIndex i = some v' ∧ le v v' := by
  have get : ∀ {h : VecHistogram A V}, h.Ok n → ∀ i, i < n → h.valueAtIndex i = some ((h.valueAtIndex i).getD RDefault.dflt) := by
    intro h ok i hi
    have : i < h.values.length := by rw [ok.size]; exact hi
    rw [show h.valueAtIndex i = some h.values[i] from List.getElem?_eq_getElem this]; rfl
  have lt : ∀ {h : VecHistogram A V} {i v}, h.Ok n → h.valueAtIndex i = some v → i < n := by
    intro h i v ok hi
    have := (List.getElem?_eq_some_iff.1 (show h.values[i]? = some v from hi)).1
    rwa [ok.size] at this
  rcases C87_binwise hrefl ok' hax' (fun j i => ((hs' j).valueAtIndex i).getD RDefault.dflt) (fun j => get (ok' j)) e with ⟨k', k1, k2, k3, k4⟩ | ⟨p, i, e1, -, -⟩
  swap
  · rw [hm] at e1; cases e1
  rw [hm] at k1; cases k1
  have key : ∀ i, i < n → ∃ v v', m'.valueAtIndex i = some v' ∧ e.value (fun j => ((hs j).valueAtIndex i).getD RDefault.dflt) = .ok v ∧ le v v' := by
    intro i hi
    obtain ⟨v', v1, v2⟩ := k4 i hi
    obtain ⟨v, w1, w2⟩ := value_grows hop he (x := fun j => ((hs j).valueAtIndex i).getD RDefault.dflt) (fun j hj => hle j hj i _ _ (get (ok j) i hi) (get (ok' j) i hi)) v2
    exact ⟨v, v', v1, w1, w2⟩
  rcases C87_binwise hrefl ok hax (fun j i => ((hs j).valueAtIndex i).getD RDefault.dflt) (fun j => get (ok j)) e with ⟨k, q1, q2, q3, q4⟩ | ⟨p, i, e1, e2, e3⟩
  · refine ⟨k, q1, q3.trans k3.symm, fun i v hv => ?_⟩
    have hi := lt q2 hv
    obtain ⟨u, u', u1, u2, u3⟩ := key i hi
    obtain ⟨z, z1, z2⟩ := q4 i hi
    rw [hv] at z1; cases z1
    rw [u2] at z2; cases z2
    exact ⟨u', u1, u3⟩
  · obtain ⟨v, v', -, h2, -⟩ := key i e2
    rw [h2] at e3; cases e3

/-- **C111 (any values, sparse).** A missing bin counts as the default value, and has to be related to itself. -/
theorem C111_sparse [ROps V] [LawfulROps V] [RDefault V] {le : V → V → Prop} {ops : Op → Prop} (hop : ∀ o, ops o → ∀ a a' b b' c' : V, le a a' → le b b' → ROps.op o a' b' = .ok c' → ∃ c, ROps.op o a b = .ok c ∧ le c c')
    (h0 : ∀ o, o ≠ .div → ROps.op o (RDefault.dflt : V) RDefault.dflt = .ok RDefault.dflt)
    {hs hs' : Nat → HashHistogram A V} (ok : ∀ j, (hs j).Ok n) (ok' : ∀ j, (hs' j).Ok n) (hax : ∀ j, (hs j).axes = axes) (hax' : ∀ j, (hs' j).axes = axes)
    {e : HExpr V} (hn : e.NoDiv) (he : e.Only ops fun x => le x x)
    (hle : ∀ j, e.Uses j → ∀ i, le (((hs j).valueAtIndex i).getD RDefault.dflt) (((hs' j).valueAtIndex i).getD RDefault.dflt)) {m' : HashHistogram A V} (hm' : e.EvalSparse hs' m') :
    (∀ m, e.EvalSparse hs m → ∀ i, le ((m.valueAtIndex i).getD RDefault.dflt) ((m'.valueAtIndex i).getD RDefault.dflt)) ∧
    (PEq.peq axes axes = true → ∀ o l r, e = .op o l r → ∀ a b, l.EvalSparse hs a → r.EvalSparse hs b → ∀ ko : HashHistogram.KeyOrder a b, ∃ m, a.opBorrow o b ko = .ok (.ok m)) := by
  have key : ∀ i, ∃ v, e.value (fun j => ((hs j).valueAtIndex i).getD RDefault.dflt) = .ok v ∧ le v ((m'.valueAtIndex i).getD RDefault.dflt) := fun i =>
    value_grows hop he (fun j hj => hle j hj i) ((C87_sparse h0 ok' hax' hn hm').2.2 i).2
  refine ⟨fun m hm i => ?_, ?_⟩
  · obtain ⟨v, v1, v2⟩ := key i
    have := ((C87_sparse h0 ok hax hn hm).2.2 i).2
    rw [v1] at this; cases this
    exact v2
  · rintro hrefl o l r rfl a b ha hb ko
    obtain ⟨d1, d2, d3⟩ := hn
    obtain ⟨a1, a2, a3⟩ := C87_sparse h0 ok hax d2 ha
    obtain ⟨b1, b2, b3⟩ := C87_sparse h0 ok hax d3 hb
    rw [(C35_sparse_exact o a1 b1 (by rw [a2, b2]; exact hrefl) ko ⟨_, List.Perm.refl _⟩).1]
    intro i _
    obtain ⟨v, hv, -⟩ := key i
    simp only [HExpr.value, (a3 i).2, (b3 i).2, bind, Except.bind] at hv
    exact ⟨v, hv⟩

/-! ## Integers, with overflow checks -/

def intLe {τ : IntTy} (v v' : MInt τ) : Prop := 0 ≤ v.val ∧ v.val ≤ v'.val

theorem int_grows {τ : IntTy} (hc : Cfg.checked = true) (o : Op) (ho : o.AddMul) : OpGrows (intLe (τ := τ)) o := by
  rintro a a' b b' c' ⟨h1, h2⟩ ⟨h3, h4⟩ h
  have hmin := τ.min_le_zero
  rcases ho with rfl | rfl
  · obtain ⟨k1, k2, k3⟩ := MInt.arith_checked hc h
    exact ⟨_, MInt.arith_ok (by omega) (by omega), by show 0 ≤ a.val + b.val; omega, by show a.val + b.val ≤ c'.val; omega⟩
  · obtain ⟨k1, k2, k3⟩ := MInt.arith_checked hc h
    have m : a.val * b.val ≤ a'.val * b'.val := mul_le_mul h2 h4 h3 (h1.trans h2)
    have p : 0 ≤ a.val * b.val := mul_nonneg h1 h3
    exact ⟨_, MInt.arith_ok (by omega) (by omega), p, by show a.val * b.val ≤ c'.val; omega⟩

/-! ## Floats -/

def finLe {F : FFmt} (v v' : Flt F) : Prop := v'.isFin → v.isFin ∧ 0 ≤ v.val ∧ v.val ≤ v'.val

theorem fin_of_op {F : FFmt} {o : Op} (ho : o.AddMul) {a b c : Flt F} (h : ROps.op o a b = .ok c) (hc : c.isFin) : a.isFin ∧ b.isFin := by
  rcases ho with rfl | rfl
  · have h' : Flt.add a b = c := by cases h; rfl
    subst h'
    cases a with
    | nan => simp [Flt.add, Flt.isFin] at hc
    | inf s =>
      cases b with
      | nan => exact hc.elim
      | inf t => simp only [Flt.add] at hc; split at hc <;> exact hc.elim
      | fin => exact hc.elim
    | fin s m hm =>
      cases b with
      | nan => simp [Flt.add, Flt.isFin] at hc
      | inf s => simp [Flt.add, Flt.isFin] at hc
      | fin => exact ⟨trivial, trivial⟩
  · have h' : Flt.mul a b = c := by cases h; rfl
    subst h'
    cases a with
    | nan => simp [Flt.mul, Flt.isFin] at hc
    | inf s =>
      cases b with
      | nan => exact hc.elim
      | inf t => exact hc.elim
      | fin => simp only [Flt.mul] at hc; split at hc <;> exact hc.elim
    | fin s m hm =>
      cases b with
      | nan => simp [Flt.mul, Flt.isFin] at hc
      | inf s => simp only [Flt.mul] at hc; split at hc <;> exact hc.elim
      | fin => exact ⟨trivial, trivial⟩

omit cfg in
/-- rounding is monotone: if the larger number has a finite rounding, so has the smaller -/
theorem rounds_fin {F : FFmt} {r r' : ℚ} {x y : Flt F} (hx : Flt.Rounds r x) (hy : Flt.Rounds r' y) (h0 : 0 ≤ r') (h : r' ≤ r) (hf : x.isFin) : y.isFin ∧ 0 ≤ y.val ∧ y.val ≤ x.val := by
  have m := F.rs_mono h
  have p := F.rs_pos_le h0
  cases hx with
  | inf h' => exact hf.elim
  | fin h1 h2 =>
    cases hy with
    | fin g1 g2 => exact ⟨g1, by rw [g2]; exact p, by rw [g2, h2]; exact m⟩
    | inf g =>
      exfalso
      rw [abs_of_nonneg p] at g
      have := Flt.abs_val_le x
      rw [h2, abs_of_nonneg (p.trans m)] at this
      linarith

theorem float_grows {F : FFmt} (o : Op) (ho : o.AddMul) : OpGrows (finLe (F := F)) o := by
  intro a a' b b' c' ha hb h
  have hf := fun hc => fin_of_op ho h hc
  rcases ho with rfl | rfl
  · have h' : Flt.add a' b' = c' := by cases h; rfl
    subst h'
    refine ⟨Flt.add a b, rfl, fun hc => ?_⟩
    obtain ⟨f1, f2⟩ := hf hc
    obtain ⟨a1, a2, a3⟩ := ha f1
    obtain ⟨b1, b2, b3⟩ := hb f2
    exact rounds_fin (Flt.add_rounds f1 f2) (Flt.add_rounds a1 b1) (add_nonneg a2 b2) (add_le_add a3 b3) hc
  · have h' : Flt.mul a' b' = c' := by cases h; rfl
    subst h'
    refine ⟨Flt.mul a b, rfl, fun hc => ?_⟩
    obtain ⟨f1, f2⟩ := hf hc
    obtain ⟨a1, a2, a3⟩ := ha f1
    obtain ⟨b1, b2, b3⟩ := hb f2
    exact rounds_fin (Flt.mul_rounds f1 f2) (Flt.mul_rounds a1 b1) (mul_nonneg a2 b2) (mul_le_mul a3 b3 b2 (a2.trans a3)) hc

omit cfg in
theorem only_mono {ops : Op → Prop} {P Q : V → Prop} (h : ∀ x, P x → Q x) {e : HExpr V} (he : e.Only ops P) : e.Only ops Q := by
  induction e with
  | var j => trivial
  | op o l r ihl ihr => exact ⟨he.1, ihl he.2.1, ihr he.2.2⟩
  | scalar o e x ih => exact ⟨he.1, h _ he.2.1, ih he.2.2⟩

omit cfg in
theorem only_noDiv {ops : Op → Prop} (hops : ∀ o, ops o → o ≠ .div) {P : V → Prop} {e : HExpr V} (he : e.Only ops P) : e.NoDiv := by
  induction e with
  | var j => trivial
  | op o l r ihl ihr => exact ⟨hops _ he.1, ihl he.2.1, ihr he.2.2⟩
  | scalar o e x ih => exact ⟨hops _ he.1, ih he.2.2⟩

omit cfg in
theorem addMul_noDiv (o : Op) (h : o.AddMul) : o ≠ .div := by rcases h with rfl | rfl <;> decide
omit cfg in
theorem add_noDiv (o : Op) (h : o.Add) : o ≠ .div := by cases h; decide

theorem op_zero_float {F : FFmt} (o : Op) (ho : o ≠ .div) : ROps.op o (RDefault.dflt : Flt F) RDefault.dflt = .ok RDefault.dflt := by
  have e : ∀ s : Bool, Flt.sval s 0 = (0 : ℚ) := by intro s; cases s <;> simp [Flt.sval]
  cases o with
  | add => exact congrArg Except.ok (by show Flt.add (Flt.zero false) (Flt.zero false) = Flt.zero false; simp [Flt.add, Flt.zero, e])
  | sub => exact congrArg Except.ok (by show Flt.sub (Flt.zero false) (Flt.zero false) = Flt.zero false; simp [Flt.sub, Flt.neg, Flt.add, Flt.zero, e])
  | mul =>
    refine congrArg Except.ok ?_
    show Flt.mul (Flt.zero false) (Flt.zero false) = Flt.zero false
    simp only [Flt.mul, Flt.zero, mul_zero]
    simp [Flt.round, F.rnd_zero, F.maxFin_pos.le]
  | div => exact absurd rfl ho

/-- **C111 (integers).** With overflow checks: in an expression of `+` and `*`, replace dense histograms by others whose bins hold at most as much and are not negative. If the program returned before it
returns now, and no bin of the result holds more than before. -/
theorem C111_int {τ : IntTy} (hc : Cfg.checked = true) (hrefl : PEq.peq axes axes = true) {hs hs' : Nat → VecHistogram A (MInt τ)} (ok : ∀ j, (hs j).Ok n) (ok' : ∀ j, (hs' j).Ok n)
    (hax : ∀ j, (hs j).axes = axes) (hax' : ∀ j, (hs' j).axes = axes) {e : HExpr (MInt τ)} (he : e.Only Op.AddMul fun x => 0 ≤ x.val)
    (hle : ∀ j, e.Uses j → ∀ i v v', (hs j).valueAtIndex i = some v → (hs' j).valueAtIndex i = some v' → 0 ≤ v.val ∧ v.val ≤ v'.val) {m' : VecHistogram A (MInt τ)} (hm : e.eval hs' = .ok (.ok m')) :
    ∃ m, e.eval hs = .ok (.ok m) ∧ m.axes = m'.axes ∧ ∀ i v, m.valueAtIndex i = some v → ∃ v', m'.valueAtIndex i = some v' ∧ 0 ≤ v.val ∧ v.val ≤ v'.val :=
  C111_dense (le := intLe) (int_grows hc) hrefl ok ok' hax hax' (only_mono (fun _ hx => ⟨hx, le_rfl⟩) he) hle hm

/-- **C111 (integers, sparse).** -/
theorem C111_int_sparse {τ : IntTy} (hc : Cfg.checked = true) {hs hs' : Nat → HashHistogram A (MInt τ)} (ok : ∀ j, (hs j).Ok n) (ok' : ∀ j, (hs' j).Ok n)
    (hax : ∀ j, (hs j).axes = axes) (hax' : ∀ j, (hs' j).axes = axes) {e : HExpr (MInt τ)} (he : e.Only Op.AddMul fun x => 0 ≤ x.val)
    (hle : ∀ j, e.Uses j → ∀ i, 0 ≤ (((hs j).valueAtIndex i).getD RDefault.dflt).val ∧ (((hs j).valueAtIndex i).getD RDefault.dflt).val ≤ (((hs' j).valueAtIndex i).getD RDefault.dflt).val)
    {m' : HashHistogram A (MInt τ)} (hm' : e.EvalSparse hs' m') :
    (∀ m, e.EvalSparse hs m → ∀ i, 0 ≤ ((m.valueAtIndex i).getD RDefault.dflt).val ∧ ((m.valueAtIndex i).getD RDefault.dflt).val ≤ ((m'.valueAtIndex i).getD RDefault.dflt).val) ∧
    (PEq.peq axes axes = true → ∀ o l r, e = .op o l r → ∀ a b, l.EvalSparse hs a → r.EvalSparse hs b → ∀ ko : HashHistogram.KeyOrder a b, ∃ m, a.opBorrow o b ko = .ok (.ok m)) :=
  C111_sparse (le := intLe) (int_grows hc) op_zero_int ok ok' hax hax' (only_noDiv addMul_noDiv he) (only_mono (fun _ hx => ⟨hx, le_rfl⟩) he) hle hm'

/-- **C111 (floats).** Whatever the roundings: if the bins of the histograms `hs` are finite, not negative and at most those of `hs'` (which may be infinite or NaN), then in every bin in which the result for `hs'` is
finite, the result for `hs` is finite, not negative and at most that. -/
theorem C111_float {F : FFmt} (hrefl : PEq.peq axes axes = true) {hs hs' : Nat → VecHistogram A (Flt F)} (ok : ∀ j, (hs j).Ok n) (ok' : ∀ j, (hs' j).Ok n)
    (hax : ∀ j, (hs j).axes = axes) (hax' : ∀ j, (hs' j).axes = axes) {e : HExpr (Flt F)} (he : e.Only Op.AddMul fun x => x.isFin ∧ 0 ≤ x.val)
    (hle : ∀ j, e.Uses j → ∀ i v v', (hs j).valueAtIndex i = some v → (hs' j).valueAtIndex i = some v' → v'.isFin → v.isFin ∧ 0 ≤ v.val ∧ v.val ≤ v'.val) :
    ∃ m m', e.eval hs = .ok (.ok m) ∧ e.eval hs' = .ok (.ok m') ∧
      ∀ i v, m.valueAtIndex i = some v → ∃ v', m'.valueAtIndex i = some v' ∧ (v'.isFin → v.isFin ∧ 0 ≤ v.val ∧ v.val ≤ v'.val) := by
  obtain ⟨m', hm', -⟩ := C87_float hrefl ok' hax' (fun j i => ((hs' j).valueAtIndex i).getD RDefault.dflt) (fun j i hi => by
    have : i < (hs' j).values.length := by rw [(ok' j).size]; exact hi
    rw [show (hs' j).valueAtIndex i = some (hs' j).values[i] from List.getElem?_eq_getElem this]; rfl) e
  obtain ⟨m, h1, -, h2⟩ := C111_dense (le := finLe) float_grows hrefl ok ok' hax hax' (only_mono (fun _ hx _ => ⟨hx.1, hx.2, le_rfl⟩) he) hle hm'
  exact ⟨m, m', h1, hm', h2⟩

/-- **C111 (floats, sparse).** -/
theorem C111_float_sparse {F : FFmt} {hs hs' : Nat → HashHistogram A (Flt F)} (ok : ∀ j, (hs j).Ok n) (ok' : ∀ j, (hs' j).Ok n)
    (hax : ∀ j, (hs j).axes = axes) (hax' : ∀ j, (hs' j).axes = axes) {e : HExpr (Flt F)} (he : e.Only Op.AddMul fun x => x.isFin ∧ 0 ≤ x.val)
    (hle : ∀ j, e.Uses j → ∀ i, (((hs' j).valueAtIndex i).getD RDefault.dflt).isFin →
      (((hs j).valueAtIndex i).getD RDefault.dflt).isFin ∧ 0 ≤ (((hs j).valueAtIndex i).getD RDefault.dflt).val ∧ (((hs j).valueAtIndex i).getD RDefault.dflt).val ≤ (((hs' j).valueAtIndex i).getD RDefault.dflt).val)
    {m m' : HashHistogram A (Flt F)} (hm : e.EvalSparse hs m) (hm' : e.EvalSparse hs' m') (i : Nat) (hi : ((m'.valueAtIndex i).getD RDefault.dflt).isFin) :
    ((m.valueAtIndex i).getD RDefault.dflt).isFin ∧ 0 ≤ ((m.valueAtIndex i).getD RDefault.dflt).val ∧ ((m.valueAtIndex i).getD RDefault.dflt).val ≤ ((m'.valueAtIndex i).getD RDefault.dflt).val :=
  (C111_sparse (le := finLe) float_grows op_zero_float ok ok' hax hax' (only_noDiv addMul_noDiv he) (only_mono (fun _ hx _ => ⟨hx.1, hx.2, le_rfl⟩) he) hle hm').1 m hm i hi
end

/-! ## Merging -/

section
variable [cfg : Cfg] {A T : Type} [Axis A] [PEq A] [RNum T] {axes : A} {n : Nat}

theorem add_grows (hT : MonoAdd T) (o : Op) (ho : o.Add) : OpGrows (numLe (T := T)) o := by
  cases ho
  rintro a a' b b' c' ⟨h1, h2⟩ ⟨h3, h4⟩ h
  exact hT.add a a' b b' c' h1 h2 h3 h4 h

theorem only_numLe (hT : MonoAdd T) {ops : Op → Prop} {e : HExpr T} (he : e.Only ops fun x => POrd.ge x (zero : T) = true) : e.Only ops fun x => numLe x x :=
  only_mono (fun _ hx => ⟨hx, hT.self _ _ hx⟩) he

/-- a sum is at least each of its parts -/
theorem value_parts (hT : MonoAdd T) {e : HExpr T} (he : e.Only Op.Add fun x => POrd.ge x (zero : T) = true) {x : Nat → T} (hx : ∀ j, e.Uses j → POrd.ge (x j) (zero : T) = true) {v : T}
    (h : e.value x = .ok v) : POrd.ge v (zero : T) = true ∧ ∀ j, e.Uses j → POrd.ge v (x j) = true := by
  induction e generalizing v with
  | var j => cases h; exact ⟨hx j rfl, fun k hk => by cases hk; exact hT.self _ _ (hx j rfl)⟩
  | op o l r ihl ihr =>
    obtain ⟨h1, h2, h3⟩ := he
    cases h1
    simp only [HExpr.value] at h
    cases hl : l.value x with
    | error => rw [hl] at h; cases h
    | ok a =>
      cases hr : r.value x with
      | error => rw [hl, hr] at h; cases h
      | ok b =>
        rw [hl, hr] at h
        obtain ⟨a1, a2⟩ := ihl h2 (fun j hj => hx j (.inl hj)) hl
        obtain ⟨b1, b2⟩ := ihr h3 (fun j hj => hx j (.inr hj)) hr
        obtain ⟨g1, g2⟩ := hT.grow a b v a1 b1 h
        refine ⟨hT.trans _ _ _ g1 a1, fun j hj => ?_⟩
        rcases hj with hj | hj
        · exact hT.trans _ _ _ g1 (a2 j hj)
        · exact hT.trans _ _ _ g2 (b2 j hj)
  | scalar o e x' ih =>
    obtain ⟨h1, h2, h3⟩ := he
    cases h1
    simp only [HExpr.value] at h
    cases hl : e.value x with
    | error => rw [hl] at h; cases h
    | ok a =>
      rw [hl] at h
      obtain ⟨a1, a2⟩ := ih h3 (fun j hj => hx j hj) hl
      obtain ⟨g1, g2⟩ := hT.grow a x' v a1 h2 h
      exact ⟨hT.trans _ _ _ g1 a1, fun j hj => hT.trans _ _ _ g1 (a2 j hj)⟩

/-- **C111 (sums).** In a sum of dense histograms (any grouping, repetitions and numbers allowed) whose bins are not negative, infinities included, lowering the histograms lowers no bin of the result. -/
theorem C111_sum (hT : MonoAdd T) (hrefl : PEq.peq axes axes = true) {hs hs' : Nat → VecHistogram A T} (ok : ∀ j, (hs j).Ok n) (ok' : ∀ j, (hs' j).Ok n)
    (hax : ∀ j, (hs j).axes = axes) (hax' : ∀ j, (hs' j).axes = axes) {e : HExpr T} (he : e.Only Op.Add fun x => POrd.ge x (zero : T) = true)
    (hle : ∀ j, e.Uses j → ∀ i v v', (hs j).valueAtIndex i = some v → (hs' j).valueAtIndex i = some v' → POrd.ge v (zero : T) = true ∧ POrd.ge v' v = true)
    {m' : VecHistogram A T} (hm : e.eval hs' = .ok (.ok m')) :
    ∃ m, e.eval hs = .ok (.ok m) ∧ m.axes = m'.axes ∧ ∀ i v, m.valueAtIndex i = some v → ∃ v', m'.valueAtIndex i = some v' ∧ POrd.ge v (zero : T) = true ∧ POrd.ge v' v = true :=
  letI : RDefault T := ⟨zero⟩
  C111_dense (le := numLe) (add_grows hT) hrefl ok ok' hax hax' (only_numLe hT he) hle hm

/-- **C111 (parts).** Every bin of a sum of histograms with non-negative bins holds at least what each of the histograms holds there. -/
theorem C111_parts (hT : MonoAdd T) (hrefl : PEq.peq axes axes = true) {hs : Nat → VecHistogram A T} (ok : ∀ j, (hs j).Ok n) (hax : ∀ j, (hs j).axes = axes)
    {e : HExpr T} (he : e.Only Op.Add fun x => POrd.ge x (zero : T) = true) (h0 : ∀ j, e.Uses j → ∀ i v, (hs j).valueAtIndex i = some v → POrd.ge v (zero : T) = true)
    {m : VecHistogram A T} (hm : e.eval hs = .ok (.ok m)) {j : Nat} (hj : e.Uses j) {i : Nat} {v : T} (hv : (hs j).valueAtIndex i = some v) : ∃ w, m.valueAtIndex i = some w ∧ POrd.ge w v = true := by
  have get : ∀ {h : VecHistogram A T}, h.Ok n → ∀ i, i < n → h.valueAtIndex i = some ((h.valueAtIndex i).getD zero) := by
    intro h ok i hi
    have : i < h.values.length := by rw [ok.size]; exact hi
    rw [show h.valueAtIndex i = some h.values[i] from List.getElem?_eq_getElem this]; rfl
  have hi : i < n := by
    have := (List.getElem?_eq_some_iff.1 (show (hs j).values[i]? = some v from hv)).1
    rwa [(ok j).size] at this
  rcases C87_binwise hrefl ok hax (fun j i => ((hs j).valueAtIndex i).getD zero) (fun j => get (ok j)) e with ⟨k, k1, k2, k3, k4⟩ | ⟨p, i, e1, -, -⟩
  · rw [hm] at k1; cases k1
    obtain ⟨w, w1, w2⟩ := k4 i hi
    have := (value_parts hT he (fun j hj => h0 j hj i _ (get (ok j) i hi)) w2).2 j hj
    rw [hv] at this
    exact ⟨w, w1, this⟩
  · rw [hm] at e1; cases e1

/-- **C111 (parts, sparse).** -/
theorem C111_parts_sparse [RDefault T] [LawfulROps T] (hT : MonoAdd T) (hz : (RDefault.dflt : T) = zero) (h0 : ∀ o, o ≠ .div → ROps.op o (RDefault.dflt : T) RDefault.dflt = .ok RDefault.dflt)
    {hs : Nat → HashHistogram A T} (ok : ∀ j, (hs j).Ok n) (hax : ∀ j, (hs j).axes = axes)
    {e : HExpr T} (he : e.Only Op.Add fun x => POrd.ge x (zero : T) = true) (hpos : ∀ j, e.Uses j → ∀ i v, (hs j).valueAtIndex i = some v → POrd.ge v (zero : T) = true)
    {m : HashHistogram A T} (hm : e.EvalSparse hs m) {j : Nat} (hj : e.Uses j) {i : Nat} {v : T} (hv : (hs j).valueAtIndex i = some v) : ∃ w, m.valueAtIndex i = some w ∧ POrd.ge w v = true := by
  obtain ⟨h1, h2⟩ := (C87_sparse h0 ok hax (only_noDiv add_noDiv he) hm).2.2 i
  obtain ⟨w, hw⟩ := Option.ne_none_iff_exists'.1 (h1.2 ⟨j, hj, by rw [hv]; simp⟩)
  rw [hw] at h2
  have := (value_parts hT he (x := fun j => ((hs j).valueAtIndex i).getD RDefault.dflt) (fun j hj => ?_) h2).2 j hj
  · rw [hv] at this
    exact ⟨w, hw, this⟩
  · show POrd.ge (((hs j).valueAtIndex i).getD RDefault.dflt) _ = true
    cases hq : (hs j).valueAtIndex i with
    | none => rw [hz]; exact hT.zero
    | some q => exact hpos j hj i q hq
end

/-! ## What does not hold -/

section
attribute [local instance] dbg64

/-- **C111**: multiplying by infinity is not monotone: 0 is at most 1, but `0 * inf` is NaN (so the result for the larger histogram has to be finite). -/
theorem C111_counterexample_inf : ROps.op .mul (f64 0) (Flt.inf false) = .ok (Flt.nan : F64) ∧ ROps.op .mul (f64 1) (Flt.inf false) = .ok (Flt.inf false : F64) ∧ POrd.ge (Flt.inf false : F64) Flt.nan = false := by
  refine ⟨?_, ?_, ?_⟩ <;> decide +kernel
end

section
attribute [local instance] rel64

/-- **C111**: nor does it hold without overflow checks: 200 is more than 100, but 200 + 200 is 144 in `u8`, less than 100 + 100. -/
theorem C111_counterexample_wrap : ROps.op .add (.lit 100 : MInt .u8) (.lit 100) = .ok (.lit 200) ∧ ROps.op .add (.lit 200 : MInt .u8) (.lit 200) = .ok (.lit 144) := by
  refine ⟨?_, ?_⟩ <;> decide +kernel
end
end NdHist
