import Verif.Props.Blame
import Verif.Props.UniformFloatBins
import Verif.Props.Variable
import Verif.Props.Axes
/-!
# C107: programs with histograms of numbers; the axes whose methods never panic
-/
namespace NdHist
variable [Cfg]
set_option linter.unusedSectionVars false

/-! ## Which axes -/

theorem C107_axis_uniform_float_new {F : FFmt} {num : Nat} {low high : Flt F} {a : Uniform (Flt F)} (hnew : Uniform.new num low high = .ok (.ok a))
    (hl : low ≠ .nan) (hh : high ≠ .nan) (hn : num + 2 < usizeSize) (hp : num < 2 ^ (F.p - 1))
    (hw : low.isFin → high.isFin → num * pow2 F.emin ≤ |high.val - low.val|) : TotalAxis a (num + 2) :=
  ⟨C25_lawful_uniform_float_new hnew hl hh hn hp hw, fun c => let ⟨_, h, _⟩ := (C05_uniform_new hnew hl hh hn hp hw).2 c; ⟨_, h⟩⟩

theorem C107_axis_uniform_float_step {F : FFmt} {num : Nat} {low step : Flt F} {a : Uniform (Flt F)} (hnew : Uniform.withStepSize num low step = .ok (.ok a))
    (hl : low.isFin) (hs : step.isFin) (hn : num + 2 < usizeSize) (hp : num < 2 ^ (F.p - 1)) : TotalAxis a (num + 2) :=
  ⟨C25_lawful_uniform_float_step hnew hl hs hn hp, fun c => let ⟨_, h, _⟩ := (C05_with_step_size hnew hl hs hn hp).2 c; ⟨_, h⟩⟩

theorem C107_axis_uniform_int {τ : IntTy} {num : Nat} {low step : MInt τ} {a : Uniform (MInt τ)}
    (hnew : Uniform.withStepSize num low step = .ok (.ok a))
    (hfit : Cfg.checked = false → (num : ℤ) * step.val ≤ τ.max ∧ low.val + num * step.val ≤ τ.max)
    (hnum : num + 2 < usizeSize) (hbin : (num : ℤ) * (num * step.val) ≤ τ.max) : TotalAxis a (num + 2) :=
  ⟨C25_lawful_uniform_int hnew hfit hnum hbin, fun c => let ⟨_, h, _⟩ := C01_uniform_int_index hnew hfit (by omega) c; ⟨_, h⟩⟩

/-- the axis without flow bins of a uniform axis whose methods never panic -/
theorem C107_axis_uniform_noflow {T : Type} [RNum T] {u : Uniform T} (h : TotalAxis u (u.num + 2)) : TotalAxis (UniformNoFlow.mk u) u.num := by
  refine ⟨C25_lawful_uniform_noflow h.lawful, fun c => ?_⟩
  obtain ⟨o, ho⟩ := h.total c
  have ho' : u.index c = .ok o := ho
  have hn : u.numBins = .ok (u.num + 2) := h.lawful.numBins
  have hf := h.lawful.fits
  show ∃ o, (UniformNoFlow.mk u).index c = .ok o
  cases o with
  | none => exact ⟨none, by simp [UniformNoFlow.index, ho', bind, Except.bind, pure, Except.pure]⟩
  | some i =>
    have hi := h.lawful.index_lt c i ho
    simp only [UniformNoFlow.index, ho', hn, bind, Except.bind, pure, Except.pure]
    by_cases h0 : i = 0
    · exact ⟨none, by simp [h0]⟩
    · have h1 : uadd i 1 = .ok (i + 1) := uadd_ok (by omega)
      have h2 : usub i 1 = .ok (i - 1) := usub_ok (by omega)
      simp only [h0, if_false, h1, h2]
      split
      · exact ⟨_, rfl⟩
      · exact ⟨_, rfl⟩

/-- wrapping a float never panics -/
theorem wrapAround_flt {F : FFmt} (lo hi x : Flt F) : ∃ y, wrapAround lo hi x = .ok y := by
  show ∃ y, (do
    let r ← if POrd.lt (Flt.rem (Flt.sub x lo) (Flt.sub hi lo)) (Flt.zero false) then (.ok (Flt.add (Flt.sub hi lo) (Flt.rem (Flt.sub x lo) (Flt.sub hi lo))) : Res (Flt F)) else pure (Flt.rem (Flt.sub x lo) (Flt.sub hi lo))
    .ok (Flt.add r lo) : Res (Flt F)) = .ok y
  split
  · exact ⟨_, rfl⟩
  · exact ⟨_, rfl⟩

/-- cyclic uniform axes of floats -/
theorem C107_axis_uniform_cyclic_float {F : FFmt} {u : Uniform (Flt F)} (h : TotalAxis u (u.num + 2)) : TotalAxis (UniformCyclic.mk (UniformNoFlow.mk u)) u.num := by
  refine ⟨C25_lawful_uniform_cyclic h.lawful, fun c => ?_⟩
  obtain ⟨y, hy⟩ := wrapAround_flt (F := F) u.low u.high c
  obtain ⟨o, ho⟩ := (C107_axis_uniform_noflow h).total y
  exact ⟨o, by
    show UniformCyclic.index (T := Flt F) _ c = _
    simp only [UniformCyclic.index, bind, Except.bind]
    rw [show wrapAround (UniformNoFlow.mk u).low (UniformNoFlow.mk u).high c = .ok y from hy]
    exact ho⟩

theorem C107_axis_variable {T : Type} [POrd T] [LawfulPOrd T] [StdLib] {edges : List T} {a : Variable T}
    (hnew : Variable.new edges = .ok (.ok a)) (hmem : edges.length + 1 < usizeSize) : TotalAxis a (edges.length + 1) := by
  refine ⟨C25_lawful_variable hnew hmem, fun c => ?_⟩
  obtain ⟨j, hj, -⟩ := C14_variable_noflow_index (a := ⟨a⟩) (edges := edges) (by simp [VariableNoFlow.new, hnew, bind, Except.bind, pure, Except.pure]) hmem c
  exact ⟨_, hj⟩

theorem C107_axis_variable_noflow {T : Type} [POrd T] [LawfulPOrd T] [StdLib] {edges : List T} {a : VariableNoFlow T}
    (hnew : VariableNoFlow.new edges = .ok (.ok a)) (hmem : edges.length + 1 < usizeSize) : TotalAxis a (edges.length - 1) := by
  refine ⟨C25_lawful_variable_noflow hnew hmem, fun c => ?_⟩
  obtain ⟨j, hj, hle, h1, h2⟩ := C14_variable_noflow_index hnew hmem c
  by_cases h : j = 0 ∨ j = edges.length
  · exact ⟨_, h2.2 h⟩
  · exact ⟨_, (h1 (j - 1)).2 (by omega)⟩

theorem C107_axis_category {T : Type} [DecidableEq T] (values : List T) (hmem : values.length + 1 < usizeSize) : TotalAxis (Category.new values) (values.length + 1) :=
  ⟨C25_lawful_category values hmem, fun _ => ⟨_, rfl⟩⟩

theorem C107_axis_category_noflow {T : Type} [DecidableEq T] (values : List T) (hmem : values.length + 1 < usizeSize) : TotalAxis (CategoryNoFlow.new values) values.length := by
  refine ⟨C25_lawful_category_noflow values hmem, fun v => ?_⟩
  obtain ⟨h4, h5⟩ := C18_category_noflow_index values hmem v
  by_cases hv : v ∈ values
  · obtain ⟨_, j, hj, _⟩ := h4 hv
    exact ⟨_, hj⟩
  · exact ⟨_, h5 hv⟩

/-- cyclic variable axes of floats -/
theorem C107_axis_variable_cyclic_float {F : FFmt} [StdLib] {edges : List (Flt F)} {a : VariableCyclic (Flt F)}
    (hnew : VariableCyclic.new edges = .ok (.ok a)) (hmem : edges.length + 1 < usizeSize) : TotalAxis a (edges.length - 1) := by
  refine ⟨C25_lawful_variable_cyclic hnew hmem, fun c => ?_⟩
  have hv := VariableCyclic.new_ok hnew
  obtain ⟨h2, _, p1, _⟩ := Variable.new_ok (VariableNoFlow.new_ok hv)
  have hlen := p1.length_eq
  obtain ⟨hi, hhi⟩ : ∃ x, a.axis.high = .ok x := by
    have hne : a.axis.axis.binEdges ≠ [] := by intro h; rw [h] at hlen; simp at hlen; omega
    exact ⟨_, by simp only [VariableNoFlow.high, Variable.high, List.getLast?_eq_getLast_of_ne_nil hne]; rfl⟩
  obtain ⟨lo, hlo⟩ : ∃ x, a.axis.low = .ok x := by
    have hne : a.axis.axis.binEdges ≠ [] := by intro h; rw [h] at hlen; simp at hlen; omega
    exact ⟨_, by simp only [VariableNoFlow.low, Variable.low, List.head?_eq_some_head hne]; rfl⟩
  obtain ⟨y, hy⟩ := wrapAround_flt (F := F) lo hi c
  obtain ⟨o, ho⟩ := (C107_axis_variable_noflow hv hmem).total y
  exact ⟨o, by
    show VariableCyclic.index (T := Flt F) _ c = _
    simp only [VariableCyclic.index, hhi, hlo, hy, bind, Except.bind]
    exact ho⟩

/-- tuples (of any length) of axes whose methods never panic -/
theorem C107_axis_tuple {t₀ t₁ : AxTy} {ts : List AxTy} {item : Tup (t₀ :: t₁ :: ts)} {ns : List Nat} (hl : TupLawful item ns) (ht : ∀ c, TupTotal item c)
    (hpos : ∀ n ∈ ns, 0 < n) (hfit : ns.prod < usizeSize) {a : AxesTuple t₀ t₁ ts} (ha : AxesTuple.fromTuple item = .ok a) : TotalAxis a ns.prod :=
  ⟨C25_lawful_tuple hl hpos hfit ha, fun c => (C22_tuple_none hl hpos hfit ha c (ht c)).2⟩

/-! ## Programs with histograms of numbers -/

theorem store_panic {V : Type} {f : V → Res V} {v : V} {p : Panic} (h : (Upd.store f v).2 = some p) : f v = .error p := by
  rcases hf : f v with q | x
  · simp only [Upd.store, hf] at h; cases h; rfl
  · simp only [Upd.store, hf] at h; cases h

/-- What the operators of a number type can panic with is what `op` and `op=` can panic with. -/
theorem opAssign_panic {V : Type} [RNum V] {o : Op} {v v' : V} {p : Panic} (h : (ROps.opAssign o v' v).2 = some p) : ROps.op o v v' = .error p := by
  cases o
  · exact store_panic (f := fun l => RNum.add l v') h
  · exact store_panic (f := fun l => RNum.sub l v') h
  · exact store_panic (f := fun l => RNum.mul l v') h
  · exact store_panic (f := fun l => RNum.div l v') h

/-- numbers: the program's own panics are those of `+` and of the operators it uses -/
theorem ownPanics_numeric {A V R : Type} [Axis A] [RNum V] {ops : Op → Prop} {E : Panic → Prop} (hadd : ∀ (v v' : V) p, RNum.add v v' = .error p → E p)
    (hops : ∀ o, ops o → ∀ (v v' : V) p, ROps.op o v v' = .error p → E p) {prog : HistProg A V R} (h : prog.Numeric ops) : prog.OwnPanics E := by
  induction prog with
  | done r => trivial
  | call x c k ih =>
    refine ⟨?_, fun r => ih r (h.2 r)⟩
    rcases h.1 with ⟨c, rfl⟩ | ⟨c, d, rfl⟩
    · intro v p hp; exact hadd _ _ p (store_panic (f := fun l => RNum.add l RNum.one) hp)
    · intro v p hp; exact hadd _ _ p (store_panic (f := fun l => RNum.add l d) hp)
  | value x c k ih => exact fun r => ih r (h r)
  | valueAt x i k ih => exact fun r => ih r (h r)
  | valueMut x c f k ih => exact ⟨fun v p hp => (by rw [h.1 v] at hp; cases hp), fun r => ih r (h.2 r)⟩
  | forEach x f k ih => exact ⟨fun i b v p hp => (by rw [h.1 i b v] at hp; cases hp), ih h.2⟩
  | clone x y k ih => exact ih h
  | borrow o x y z k ih => exact ⟨hops o h.1, fun r => ih r (h.2 r)⟩
  | owned o x y z k ih => exact ⟨fun v v' p hp => hops o h.1 v v' p (opAssign_panic hp), fun r => ih r (h.2 r)⟩
  | assign o x y k ih => exact ⟨fun v v' p hp => hops o h.1 v v' p (opAssign_panic hp), ih h.2⟩

variable {A R : Type} [Axis A] [PEq A]

/-- the panics of integer operators -/
theorem int_op_panic {τ : IntTy} {o : Op} {v v' : MInt τ} {p : Panic} (h : ROps.op o v v' = .error p) :
    (p = .overflow ∧ (Cfg.checked = true ∨ o = .div)) ∨ (p = .divZero ∧ o = .div) := by
  have ha : ∀ {n : Int}, (MInt.arith n : Res (MInt τ)) = .error p → p = .overflow ∧ Cfg.checked = true := by
    intro n hn
    unfold MInt.arith at hn
    split at hn
    · cases hn
    · split at hn
      · cases hn; exact ⟨rfl, by assumption⟩
      · cases hn
  cases o with
  | add => obtain ⟨h1, h2⟩ := ha h; exact .inl ⟨h1, .inl h2⟩
  | sub => obtain ⟨h1, h2⟩ := ha h; exact .inl ⟨h1, .inl h2⟩
  | mul => obtain ⟨h1, h2⟩ := ha h; exact .inl ⟨h1, .inl h2⟩
  | div =>
    simp only [ROps.op, RNum.div] at h
    split at h
    · cases h; exact .inr ⟨rfl, rfl⟩
    · unfold MInt.arithDiv at h
      split at h
      · cases h
      · cases h; exact .inl ⟨rfl, .inr rfl⟩

/-- **C107 (floats).** On a histogram of floats, a program that fills (with or without a value), reads, changes and iterates bins with closures that do not panic, and uses any of the four operators between histograms in any form, never panics:
not in a call whose panic it could catch, and not as a whole. Dense or sparse. -/
theorem C107_floats {F : FFmt} {a : A} {n : Nat} (ht : TotalAxis a n) (hp : PEq.peq a a = true) (prog : HistProg A (Flt F) R) (hprog : prog.Numeric fun _ => True) :
    (∀ env, (∀ x, (env x).axes = a ∧ (env x).values.length = n) → prog.panicsDense env = [] ∧ ∃ fin r, prog.runDense env = .ok (fin, r)) ∧
    ∀ w env, (∀ x, (env x).axes = a ∧ ∀ k ∈ (env x).values.keys, k < n) → prog.panicsSparse w env = [] ∧ ∃ fin r, prog.runSparse w env = .ok (fin, r) := by
  have hE : prog.OwnPanics fun _ => False := ownPanics_numeric (fun v v' p h => (by cases h)) (fun o _ v v' p h => (by cases o <;> cases h)) hprog
  constructor
  · intro env ho
    obtain ⟨h1, -, h3⟩ := C107_dense ht hp prog hE env ho
    have := List.eq_nil_iff_forall_not_mem.2 fun p hp => h1 p hp
    exact ⟨this, h3 this⟩
  · intro w env ho
    obtain ⟨h1, -, h3⟩ := C107_sparse ht hp prog hE w env ho
    have := List.eq_nil_iff_forall_not_mem.2 fun p hp => h1 p hp
    exact ⟨this, h3 this⟩

/-- **C107 (integers).** The same program on a histogram of integers can only meet two panics: an arithmetic overflow, which takes overflow checks or a division, and a division by zero, which takes a division of histograms. -/
theorem C107_integers {τ : IntTy} {ops : Op → Prop} {a : A} {n : Nat} (ht : TotalAxis a n) (hp : PEq.peq a a = true) (prog : HistProg A (MInt τ) R) (hprog : prog.Numeric ops) :
    (∀ env, (∀ x, (env x).axes = a ∧ (env x).values.length = n) → ∀ p ∈ prog.panicsDense env, (p = .overflow ∧ (Cfg.checked = true ∨ ops .div)) ∨ (p = .divZero ∧ ops .div)) ∧
    ∀ w env, (∀ x, (env x).axes = a ∧ ∀ k ∈ (env x).values.keys, k < n) → ∀ p ∈ prog.panicsSparse w env, (p = .overflow ∧ (Cfg.checked = true ∨ ops .div)) ∨ (p = .divZero ∧ ops .div) := by
  have hE : prog.OwnPanics fun p => (p = .overflow ∧ (Cfg.checked = true ∨ ops .div)) ∨ (p = .divZero ∧ ops .div) := by
    refine ownPanics_numeric (fun v v' p h => ?_) (fun o ho v v' p h => ?_) hprog
    · rcases int_op_panic (o := .add) h with ⟨h1, h2 | h2⟩ | ⟨-, h2⟩
      · exact .inl ⟨h1, .inl h2⟩
      · cases h2
      · cases h2
    · rcases int_op_panic h with ⟨h1, h2 | rfl⟩ | ⟨h1, rfl⟩
      · exact .inl ⟨h1, .inl h2⟩
      · exact .inl ⟨h1, .inr ho⟩
      · exact .inr ⟨h1, ho⟩
  exact ⟨fun env ho => (C107_dense ht hp prog hE env ho).1, fun w env ho => (C107_sparse ht hp prog hE w env ho).1⟩

/-- **C107 (integers without overflow checks).** Without overflow checks and without dividing histograms, such a program on integers never panics. -/
theorem C107_integers_unchecked {τ : IntTy} {ops : Op → Prop} (hc : Cfg.checked = false) (hdiv : ¬ ops .div) {a : A} {n : Nat} (ht : TotalAxis a n) (hp : PEq.peq a a = true) (prog : HistProg A (MInt τ) R)
    (hprog : prog.Numeric ops) :
    (∀ env, (∀ x, (env x).axes = a ∧ (env x).values.length = n) → prog.panicsDense env = [] ∧ ∃ fin r, prog.runDense env = .ok (fin, r)) ∧
    ∀ w env, (∀ x, (env x).axes = a ∧ ∀ k ∈ (env x).values.keys, k < n) → prog.panicsSparse w env = [] ∧ ∃ fin r, prog.runSparse w env = .ok (fin, r) := by
  have hE : prog.OwnPanics fun _ => False := by
    refine ownPanics_numeric (fun v v' p h => ?_) (fun o ho v v' p h => ?_) hprog
    · rcases int_op_panic (o := .add) h with ⟨h1, h2 | h2⟩ | ⟨-, h2⟩
      · rw [hc] at h2; cases h2
      · cases h2
      · cases h2
    · rcases int_op_panic h with ⟨h1, h2 | rfl⟩ | ⟨h1, rfl⟩
      · rw [hc] at h2; cases h2
      · exact hdiv ho
      · exact hdiv ho
  constructor
  · intro env ho
    obtain ⟨h1, -, h3⟩ := C107_dense ht hp prog hE env ho
    have := List.eq_nil_iff_forall_not_mem.2 fun p hp => h1 p hp
    exact ⟨this, h3 this⟩
  · intro w env ho
    obtain ⟨h1, -, h3⟩ := C107_sparse ht hp prog hE w env ho
    have := List.eq_nil_iff_forall_not_mem.2 fun p hp => h1 p hp
    exact ⟨this, h3 this⟩

/-! ## Filling the other value types -/

/-- **C107 (value types of floats).** Filling a `Sum`, a `WeightedSum`, or a `Mean` or `WeightedMean` whose counter is a float never panics, whatever the value has come to hold: with these value types the calls of a program add no panic. -/
theorem C107_fills_floats {F : FFmt} {O : Type} :
    (∀ s : Sum (Flt F), (Fill.fill s).2 = none) ∧ (∀ (d : Flt F) (s : Sum (Flt F)), (FillWith.fillWith d s).2 = none) ∧
    (∀ s : WeightedSum (Flt F), (Fill.fill s).2 = none) ∧ (∀ (d : Flt F) (s : WeightedSum (Flt F)), (FillWith.fillWith d s).2 = none) ∧
    (∀ (d : Flt F) (m : Mean (Flt F) O (Flt F)), (FillWith.fillWith d m).2 = none) ∧
    ∀ (d w : Flt F) (m : WeightedMean (Flt F) (Flt F) O (Flt F)), (FillWithWeighted.fillWithWeighted d w m).2 = none :=
  ⟨fun _ => rfl, fun _ _ => rfl, fun _ => rfl, fun _ _ => rfl, fun _ _ => rfl, fun _ _ _ => rfl⟩

/-- **C107 (counters).** If the counter of a `Mean` or `WeightedMean` of floats is an integer, filling panics exactly when the counter is at its maximum in a build with overflow checks, and then with an overflow. -/
theorem C107_fills_counter {F : FFmt} {O : Type} {τ : IntTy} :
    (∀ (d : Flt F) (m : Mean (Flt F) O (MInt τ)) (p : Panic), (FillWith.fillWith d m).2 = some p ↔ p = .overflow ∧ Cfg.checked = true ∧ m.count.val = τ.max) ∧
    ∀ (d w : Flt F) (m : WeightedMean (Flt F) (Flt F) O (MInt τ)) (p : Panic), (FillWithWeighted.fillWithWeighted d w m).2 = some p ↔ p = .overflow ∧ Cfg.checked = true ∧ m.count.val = τ.max := by
  have key : ∀ (c : MInt τ) (p : Panic), (Fill.fill c).2 = some p ↔ p = .overflow ∧ Cfg.checked = true ∧ c.val = τ.max := by
    intro c p
    have h1 := c.le_max
    have h2 := c.min_le
    show (Upd.store (fun s : MInt τ => MInt.arith (s.val + 1)) c).2 = some p ↔ _
    simp only [Upd.store]
    unfold MInt.arith
    by_cases hm : c.val = τ.max
    · have : ¬ (τ.min ≤ c.val + 1 ∧ c.val + 1 ≤ τ.max) := by omega
      rw [dif_neg this]
      cases hc : Cfg.checked with
      | true => simp [hm, eq_comm]
      | false => simp
    · have : τ.min ≤ c.val + 1 ∧ c.val + 1 ≤ τ.max := by omega
      rw [dif_pos this]
      simp [hm]
  constructor
  · intro d m p
    rw [← key m.count p]
    rfl
  · intro d w m p
    rw [← key m.count p]
    rfl

end NdHist
