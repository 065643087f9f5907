import Verif.SpecProfile
import Verif.Model.Category
import Verif.Model.Variable
import Verif.Model.FloatConv
import Verif.Model.Eq
import Verif.Model.Macros
/-!
# C63: debug and release builds compute the same, except where the debug build panics with overflow
-/
namespace NdHist

/-! ## Composition -/
section
variable {α β γ δ : Type} {S : α → β → Prop} {P : γ → δ → Prop}

theorem Builds.ok {x : α} {y : β} (h : S x y) : Builds S (.ok x) (.ok y) := ⟨y, rfl, h⟩
theorem Builds.pure {x : α} {y : β} (h : S x y) : Builds S (Pure.pure x : Res α) (Pure.pure y : Res β) := ⟨y, rfl, h⟩
theorem Builds.error {p : Panic} : Builds S (.error p) (.error p) := Or.inr rfl
theorem Builds.overflow {r : Res β} : Builds S (.error .overflow) r := Or.inl rfl

theorem Builds.bind {d : Res α} {r : Res β} {f : α → Res γ} {g : β → Res δ} (h : Builds S d r)
    (hfg : ∀ x y, S x y → Builds P (f x) (g y)) : Builds P (d >>= f) (r >>= g) := by
  cases d with
  | error p =>
    rcases h with rfl | h
    · exact Or.inl rfl
    · subst h; exact Or.inr rfl
  | ok x =>
    obtain ⟨y, rfl, hs⟩ := h
    exact hfg x y hs

theorem Builds.of_eq {d r : Res α} (h : d = r) : Builds Eq d r := by
  subst h
  cases d with
  | error p => exact Or.inr rfl
  | ok x => exact ⟨x, rfl, rfl⟩

theorem Builds.mono {S' : α → β → Prop} {d : Res α} {r : Res β} (h : Builds S d r) (hs : ∀ x y, S x y → S' x y) : Builds S' d r := by
  cases d with
  | error p => exact h
  | ok x => obtain ⟨y, hy, h⟩ := h; exact ⟨y, hy, hs _ _ h⟩

theorem Builds.throw {p : Panic} : Builds S (MonadExcept.throw p : Res α) (MonadExcept.throw p : Res β) := Or.inr rfl

theorem Builds.eq_bind {d r : Res α} {f : α → Res γ} {g : α → Res δ} (h : Builds Eq d r)
    (hfg : ∀ x, Builds P (f x) (g x)) : Builds P (d >>= f) (r >>= g) :=
  h.bind fun x y hxy => hxy ▸ hfg x

theorem Builds.mapM {d : γ → Res α} {r : δ → Res β} {l : List γ} {l' : List δ} (hl : List.Forall₂ P l l') (h : ∀ x y, P x y → Builds S (d x) (r y)) :
    Builds (List.Forall₂ S) (l.mapM d) (l'.mapM r) := by
  induction hl with
  | nil => exact Builds.pure .nil
  | cons hx _ ih =>
    rw [List.mapM_cons, List.mapM_cons]
    exact (h _ _ hx).bind fun a a' ha => ih.bind fun as as' has => Builds.pure (.cons ha has)

end

section
variable {b : Nat} {hb : 16 ≤ b}


theorem builds_uwrap (n : Nat) : Builds Eq (@uwrap (debugBuild b hb) n) (@uwrap (releaseBuild b hb) n) := by
  unfold uwrap
  by_cases h : n < 2 ^ b
  · rw [if_pos (by exact h), if_pos (by exact h)]
    exact Builds.ok rfl
  · rw [if_neg (by exact h)]
    exact Builds.overflow

theorem builds_uadd (m n : Nat) : Builds Eq (@uadd (debugBuild b hb) m n) (@uadd (releaseBuild b hb) m n) := builds_uwrap _
theorem builds_umul (m n : Nat) : Builds Eq (@umul (debugBuild b hb) m n) (@umul (releaseBuild b hb) m n) := builds_uwrap _
theorem builds_usub (m n : Nat) : Builds Eq (@usub (debugBuild b hb) m n) (@usub (releaseBuild b hb) m n) := by
  unfold usub
  by_cases h : n ≤ m
  · rw [if_pos h, if_pos h]
    exact Builds.ok rfl
  · rw [if_neg h]
    exact Builds.overflow

/-! ## Numbers -/

theorem builds_arith {τ : IntTy} (n : Int) : Builds Eq (@MInt.arith τ (debugBuild b hb) n) (@MInt.arith τ (releaseBuild b hb) n) := by
  unfold MInt.arith
  by_cases h : τ.min ≤ n ∧ n ≤ τ.max
  · rw [dif_pos h, dif_pos h]
    exact Builds.ok rfl
  · rw [dif_neg h]
    exact Builds.overflow

/-- **C63**: the operators of every primitive integer type -/
theorem C63_integers (τ : IntTy) : NumBuilds b hb (MInt τ) (@MInt.instRNum τ (debugBuild b hb)) (@MInt.instRNum τ (releaseBuild b hb)) where
  cmp := rfl
  zero := rfl
  one := rfl
  add _ _ := builds_arith _
  sub _ _ := builds_arith _
  mul _ _ := builds_arith _
  div _ _ := Builds.of_eq rfl
  rem _ _ := Builds.of_eq rfl
  ofUsize _ := rfl
  toUsize _ := rfl

/-- **C63**: the operators of the float types -/
theorem C63_floats (F : FFmt) : NumBuilds b hb (Flt F) (@Flt.instRNum F (debugBuild b hb)) (@Flt.instRNum F (releaseBuild b hb)) where
  cmp := rfl
  zero := rfl
  one := rfl
  add _ _ := Builds.of_eq rfl
  sub _ _ := Builds.of_eq rfl
  mul _ _ := Builds.of_eq rfl
  div _ _ := Builds.of_eq rfl
  rem _ _ := Builds.of_eq rfl
  ofUsize _ := rfl
  toUsize x := by cases x <;> rfl

/-! ## Uniform axes -/
section
variable {T : Type} {d : @RNum T (debugBuild b hb)} {r : @RNum T (releaseBuild b hb)} (hT : NumBuilds b hb T d r)
include hT

theorem NumBuilds.lt (x y : T) : @POrd.lt T r.toPOrd x y = @POrd.lt T d.toPOrd x y := congrArg (fun p => @POrd.lt T p x y) hT.cmp.symm
theorem NumBuilds.gt (x y : T) : @POrd.gt T r.toPOrd x y = @POrd.gt T d.toPOrd x y := congrArg (fun p => @POrd.gt T p x y) hT.cmp.symm
theorem NumBuilds.le (x y : T) : @POrd.le T r.toPOrd x y = @POrd.le T d.toPOrd x y := congrArg (fun p => @POrd.le T p x y) hT.cmp.symm
theorem NumBuilds.ge (x y : T) : @POrd.ge T r.toPOrd x y = @POrd.ge T d.toPOrd x y := congrArg (fun p => @POrd.ge T p x y) hT.cmp.symm
theorem NumBuilds.eq (x y : T) : @POrd.eq T r.toPOrd x y = @POrd.eq T d.toPOrd x y := congrArg (fun p => @POrd.eq T p x y) hT.cmp.symm

/-- **C63**: `Uniform::new` -/
theorem C63_uniform_new (num : Nat) (low high : T) :
    Builds Eq (@Uniform.new T (debugBuild b hb) d num low high) (@Uniform.new T (releaseBuild b hb) r num low high) := by
  unfold Uniform.new
  simp only [hT.lt, hT.ge, hT.gt, hT.eq]
  split
  · exact Builds.pure rfl
  split
  · exact Builds.pure rfl
  refine (hT.sub _ _).eq_bind fun range => ?_
  rw [← hT.ofUsize]
  cases d.ofUsize num with
  | none => exact Builds.pure rfl
  | some n => exact (hT.div _ _).eq_bind fun step => Builds.pure rfl

/-- **C63**: `Uniform::with_step_size` -/
theorem C63_uniform_with_step_size (num : Nat) (low step : T) :
    Builds Eq (@Uniform.withStepSize T (debugBuild b hb) d num low step) (@Uniform.withStepSize T (releaseBuild b hb) r num low step) := by
  unfold Uniform.withStepSize
  simp only [hT.gt, hT.le, ← hT.ofUsize, ← hT.zero]
  cases d.ofUsize num with
  | none => exact Builds.pure rfl
  | some n =>
    refine (hT.mul _ _).eq_bind fun prod => (hT.add _ _).eq_bind fun high => ?_
    exact Builds.of_eq rfl

theorem builds_uniform_index (a : Uniform T) (c : T) : Builds Eq (@Uniform.index T (debugBuild b hb) d a c) (@Uniform.index T (releaseBuild b hb) r a c) := by
  unfold Uniform.index
  simp only [hT.lt, hT.ge, hT.gt, hT.eq]
  split
  · exact Builds.pure rfl
  split
  · exact (builds_uadd _ _).eq_bind fun i => Builds.pure rfl
  refine (hT.sub _ _).eq_bind fun x => (hT.div _ _).eq_bind fun y => ?_
  rw [← hT.toUsize]
  exact (builds_uadd _ _).eq_bind fun i => Builds.pure rfl

theorem builds_uniform_edge (a : Uniform T) (k : Nat) : Builds Eq (@Uniform.edge T (debugBuild b hb) d a k) (@Uniform.edge T (releaseBuild b hb) r a k) := by
  unfold Uniform.edge
  simp only [← hT.ofUsize]
  cases d.ofUsize k with
  | none => exact Builds.pure rfl
  | some kt =>
    refine (hT.sub _ _).eq_bind fun x => (hT.mul _ _).eq_bind fun y => ?_
    cases d.ofUsize a.num with
    | none => exact Builds.pure rfl
    | some nt => exact (hT.div _ _).eq_bind fun z => (hT.add _ _).eq_bind fun e => Builds.pure rfl

theorem builds_uniform_bin (a : Uniform T) (i : Nat) : Builds Eq (@Uniform.bin T (debugBuild b hb) d a i) (@Uniform.bin T (releaseBuild b hb) r a i) := by
  unfold Uniform.bin
  split
  · exact Builds.pure rfl
  refine (builds_uadd _ _).eq_bind fun n1 => ?_
  split
  · exact Builds.pure rfl
  split
  · exact Builds.pure rfl
  refine (builds_uniform_edge hT _ _).eq_bind fun s => ?_
  cases s with
  | none => exact Builds.pure rfl
  | some s =>
    refine (builds_uniform_edge hT _ _).eq_bind fun e => ?_
    cases e with
    | none => exact Builds.pure rfl
    | some e => exact Builds.pure rfl


omit hT in
/-- For axes with equal coordinate and interval types, agreement of the methods on equal arguments is enough. -/
theorem agree_equal {A C I : Type} {ind : A → C → Res (Option Nat)} {num : A → Res Nat} {bin : A → Nat → Res (Option I)} {dim : A → Nat}
    {ind' : A → C → Res (Option Nat)} {num' : A → Res Nat} {bin' : A → Nat → Res (Option I)}
    (hi : ∀ a c, Builds Eq (ind a c) (ind' a c)) (hn : ∀ a, Builds Eq (num a) (num' a)) (hbn : ∀ a i, Builds Eq (bin a i) (bin' a i)) :
    (TwinAxis.equal (b := b) (hb := hb) (@Axis.mk A (debugBuild b hb) C I ind num bin dim) (@Axis.mk A (releaseBuild b hb) C I ind' num' bin' dim)).Agree where
  index := by
    rintro a _ c c' rfl h
    obtain rfl : c = c' := eq_of_heq h
    exact hi a c
  numBins := by rintro a _ rfl; exact hn a
  bin := by rintro a _ i rfl; exact (hbn a i).mono fun x y h => by subst h; cases x <;> simp [BothOption, TwinAxis.equal]
  numDim := by rintro a _ rfl; rfl

/-- **C63**: `Uniform` -/
theorem C63_uniform : (TwinAxis.equal (@Uniform.instAxis T (debugBuild b hb) d) (@Uniform.instAxis T (releaseBuild b hb) r)).Agree :=
  agree_equal (builds_uniform_index hT) (fun _ => builds_uadd _ _) (builds_uniform_bin hT)

theorem builds_uniform_noflow_index (a : UniformNoFlow T) (c : T) :
    Builds Eq (@UniformNoFlow.index T (debugBuild b hb) d a c) (@UniformNoFlow.index T (releaseBuild b hb) r a c) := by
  unfold UniformNoFlow.index
  refine (builds_uniform_index hT _ _).eq_bind fun i => ?_
  cases i with
  | none => exact Builds.pure rfl
  | some i =>
    dsimp only
    split
    · exact Builds.pure rfl
    refine (builds_uadd _ _).eq_bind fun i1 => Builds.eq_bind (builds_uadd _ _) fun n => ?_
    split
    · exact Builds.pure rfl
    exact (builds_usub _ _).eq_bind fun _ => Builds.pure rfl

theorem builds_uniform_noflow_bin (a : UniformNoFlow T) (i : Nat) :
    Builds Eq (@UniformNoFlow.bin T (debugBuild b hb) d a i) (@UniformNoFlow.bin T (releaseBuild b hb) r a i) := by
  unfold UniformNoFlow.bin
  refine (builds_uadd _ _).eq_bind fun i1 => (builds_uniform_bin hT _ _).eq_bind fun x => ?_
  rcases x with _ | _ | _ | _ <;> exact Builds.pure rfl

omit hT in
theorem builds_uniform_noflow_numBins (a : UniformNoFlow T) :
    Builds Eq (@UniformNoFlow.numBins T (debugBuild b hb) a) (@UniformNoFlow.numBins T (releaseBuild b hb) a) :=
  Builds.eq_bind (builds_uadd _ _) fun _ => builds_usub _ _

/-- **C63**: `UniformNoFlow` -/
theorem C63_uniform_noflow : (TwinAxis.equal (@UniformNoFlow.instAxis T (debugBuild b hb) d) (@UniformNoFlow.instAxis T (releaseBuild b hb) r)).Agree :=
  agree_equal (builds_uniform_noflow_index hT) builds_uniform_noflow_numBins (builds_uniform_noflow_bin hT)

/-- **C63**: `UniformNoFlow::new` -/
theorem C63_uniform_noflow_new (num : Nat) (low high : T) :
    Builds Eq (@UniformNoFlow.new T (debugBuild b hb) d num low high) (@UniformNoFlow.new T (releaseBuild b hb) r num low high) := by
  unfold UniformNoFlow.new
  refine (C63_uniform_new hT _ _ _).eq_bind fun x => ?_
  cases x <;> exact Builds.pure rfl

/-- **C63**: `UniformNoFlow::with_step_size` -/
theorem C63_uniform_noflow_with_step_size (num : Nat) (low step : T) :
    Builds Eq (@UniformNoFlow.withStepSize T (debugBuild b hb) d num low step) (@UniformNoFlow.withStepSize T (releaseBuild b hb) r num low step) := by
  unfold UniformNoFlow.withStepSize
  refine (C63_uniform_with_step_size hT _ _ _).eq_bind fun x => ?_
  cases x <;> exact Builds.pure rfl

theorem builds_wrapAround (lo hi x : T) :
    Builds Eq (@wrapAround T (debugBuild b hb) d lo hi x) (@wrapAround T (releaseBuild b hb) r lo hi x) := by
  unfold wrapAround
  refine (hT.sub _ _).eq_bind fun range => (hT.sub _ _).eq_bind fun y => (hT.rem _ _).eq_bind fun z => ?_
  simp only [hT.lt, ← hT.zero]
  split
  · exact (hT.add _ _).eq_bind fun w => hT.add _ _
  · exact hT.add _ _

/-- **C63**: `UniformCyclic` -/
theorem C63_uniform_cyclic : (TwinAxis.equal (@UniformCyclic.instAxis T (debugBuild b hb) d) (@UniformCyclic.instAxis T (releaseBuild b hb) r)).Agree :=
  agree_equal (fun a c => (builds_wrapAround hT _ _ _).eq_bind fun x => builds_uniform_noflow_index hT a.axis x)
    (fun a => builds_uniform_noflow_numBins a.axis) (fun a i => builds_uniform_noflow_bin hT a.axis i)

/-- **C63**: `UniformCyclic::new` -/
theorem C63_uniform_cyclic_new (num : Nat) (low high : T) :
    Builds Eq (@UniformCyclic.new T (debugBuild b hb) d num low high) (@UniformCyclic.new T (releaseBuild b hb) r num low high) := by
  unfold UniformCyclic.new
  refine (C63_uniform_noflow_new hT _ _ _).eq_bind fun x => ?_
  cases x <;> exact Builds.pure rfl

/-- **C63**: `UniformCyclic::with_step_size` -/
theorem C63_uniform_cyclic_with_step_size (num : Nat) (low step : T) :
    Builds Eq (@UniformCyclic.withStepSize T (debugBuild b hb) d num low step) (@UniformCyclic.withStepSize T (releaseBuild b hb) r num low step) := by
  unfold UniformCyclic.withStepSize
  refine (C63_uniform_noflow_with_step_size hT _ _ _).eq_bind fun x => ?_
  cases x <;> exact Builds.pure rfl

/-! ## Variable axes -/
variable [StdLib]

omit hT in
theorem builds_variable_index [POrd T] (a : Variable T) (c : T) :
    Builds Eq (@Variable.index T (debugBuild b hb) _ _ a c) (@Variable.index T (releaseBuild b hb) _ _ a c) := by
  unfold Variable.index
  split
  · exact (builds_uadd _ _).eq_bind fun i => Builds.pure rfl
  · exact Builds.pure rfl

omit hT in
/-- **C63**: `Variable` -/
theorem C63_variable [POrd T] : (TwinAxis.equal (@Variable.instAxis T (debugBuild b hb) _ _) (@Variable.instAxis T (releaseBuild b hb) _ _)).Agree :=
  agree_equal builds_variable_index (fun _ => builds_uadd _ _) (fun _ _ => Builds.of_eq rfl)

omit hT in
theorem builds_variable_noflow_index [POrd T] (a : VariableNoFlow T) (c : T) :
    Builds Eq (@VariableNoFlow.index T (debugBuild b hb) _ _ a c) (@VariableNoFlow.index T (releaseBuild b hb) _ _ a c) := by
  unfold VariableNoFlow.index
  refine (builds_variable_index _ _).eq_bind fun i => ?_
  cases i with
  | none => exact Builds.pure rfl
  | some i =>
    dsimp only
    split
    · exact Builds.pure rfl
    refine (builds_uadd _ _).eq_bind fun i1 => Builds.eq_bind (builds_uadd _ _) fun n => ?_
    split
    · exact Builds.pure rfl
    exact (builds_usub _ _).eq_bind fun _ => Builds.pure rfl

omit hT in
theorem builds_variable_noflow_bin [POrd T] (a : VariableNoFlow T) (i : Nat) :
    Builds Eq (@VariableNoFlow.bin T (debugBuild b hb) a i) (@VariableNoFlow.bin T (releaseBuild b hb) a i) :=
  (builds_uadd _ _).eq_bind fun _ => Builds.of_eq rfl

omit hT in
/-- **C63**: `VariableNoFlow` -/
theorem C63_variable_noflow [POrd T] :
    (TwinAxis.equal (@VariableNoFlow.instAxis T (debugBuild b hb) _ _) (@VariableNoFlow.instAxis T (releaseBuild b hb) _ _)).Agree :=
  agree_equal builds_variable_noflow_index (fun _ => Builds.eq_bind (builds_uadd _ _) fun _ => builds_usub _ _) builds_variable_noflow_bin

/-- **C63**: `VariableCyclic` -/
theorem C63_variable_cyclic :
    (TwinAxis.equal (@VariableCyclic.instAxis T (debugBuild b hb) _ d) (@VariableCyclic.instAxis T (releaseBuild b hb) _ r)).Agree := by
  have hc := hT.cmp
  refine agree_equal (fun a c => ?_) (fun _ => Builds.eq_bind (builds_uadd _ _) fun _ => builds_usub _ _) (fun a i => builds_variable_noflow_bin (b := b) (hb := hb) a.axis i)
  unfold VariableCyclic.index
  refine (Builds.of_eq rfl).eq_bind fun hi => (Builds.of_eq rfl).eq_bind fun lo => (builds_wrapAround hT _ _ _).eq_bind fun x => ?_
  rw [← hc]
  exact @builds_variable_noflow_index b hb T _ d.toPOrd _ _

end

/-! ## Category axes -/

/-- **C63**: `Category` -/
theorem C63_category {T : Type} [DecidableEq T] :
    (TwinAxis.equal (@Category.instAxis T _ (debugBuild b hb)) (@Category.instAxis T _ (releaseBuild b hb))).Agree :=
  agree_equal (fun _ _ => Builds.of_eq rfl) (fun _ => builds_uadd _ _) (fun _ _ => Builds.of_eq rfl)

/-- **C63**: `CategoryNoFlow` -/
theorem C63_category_noflow {T : Type} [DecidableEq T] :
    (TwinAxis.equal (@CategoryNoFlow.instAxis T _ (debugBuild b hb)) (@CategoryNoFlow.instAxis T _ (releaseBuild b hb))).Agree := by
  refine agree_equal (fun a c => ?_) (fun _ => Builds.eq_bind (builds_uadd _ _) fun _ => builds_usub _ _) (fun _ _ => Builds.of_eq rfl)
  unfold CategoryNoFlow.index
  refine (Builds.of_eq rfl).eq_bind fun i => ?_
  cases i with
  | none => exact Builds.pure rfl
  | some i =>
    refine Builds.eq_bind (builds_uadd _ _) fun n => (builds_usub _ _).eq_bind fun last => ?_
    split <;> exact Builds.pure rfl

/-! ## The provided methods of `Axis` -/
section
variable {A A' : Type} {d : @Axis A (debugBuild b hb)} {r : @Axis A' (releaseBuild b hb)} {s : TwinAxis b hb A A' d r} (hA : s.Agree)
include hA

/-- **C63**: `indices` of any axis -/
theorem C63_indices {a a'} (h : s.axis a a') : Builds Eq (@Axis.indices A (debugBuild b hb) d a) (@Axis.indices A' (releaseBuild b hb) r a') :=
  (hA.numBins h).eq_bind fun _ => Builds.pure rfl

omit hA in
theorem forall₂_eq {α : Type} (l : List α) : List.Forall₂ Eq l l := by
  induction l with
  | nil => exact .nil
  | cons x xs ih => exact .cons rfl ih

omit hA in
theorem builds_expect {α β : Type} {S : α → β → Prop} {x : Option α} {y : Option β} (h : BothOption S x y) : Builds S (expect x) (expect y) := by
  cases x <;> cases y <;> first | exact Builds.error | exact Builds.ok h | exact absurd h (by simp [BothOption])

/-- **C63**: `bins` of any axis -/
theorem C63_bins {a a'} (h : s.axis a a') :
    Builds (List.Forall₂ s.interval) (@Axis.bins A (debugBuild b hb) d a) (@Axis.bins A' (releaseBuild b hb) r a') := by
  refine (C63_indices hA h).eq_bind fun is => Builds.mapM (forall₂_eq is) ?_
  rintro i _ rfl
  exact (hA.bin i h).bind fun x y hxy => builds_expect hxy

/-- **C63**: `iter` of any axis -/
theorem C63_axis_iter {a a'} (h : s.axis a a') :
    Builds (List.Forall₂ fun x y => x.1 = y.1 ∧ s.interval x.2 y.2) (@Axis.iter A (debugBuild b hb) d a) (@Axis.iter A' (releaseBuild b hb) r a') := by
  refine (C63_indices hA h).eq_bind fun is => Builds.mapM (forall₂_eq is) ?_
  rintro i _ rfl
  exact (hA.bin i h).bind fun x y hxy => (builds_expect hxy).bind fun x y hxy => Builds.pure ⟨rfl, hxy⟩

/-! ## Tuples of axes -/

/-- **C63**: one-dimensional axes tuples -/
theorem C63_tuple1 : s.tuple1.Agree where
  index h hc := hA.index h.1 hc
  numBins h := hA.numBins h.1
  bin i h := hA.bin i h.1
  numDim _ := rfl

/-- **C63**: making a one-dimensional axes tuple -/
theorem C63_from_tuple1 {a a'} (h : s.axis a a') :
    Builds s.tuple1.axis (@AxesTuple1.fromTuple A (debugBuild b hb) d a) (@AxesTuple1.fromTuple A' (releaseBuild b hb) r a') :=
  (hA.numBins h).bind fun _ _ hn => Builds.pure ⟨h, by rw [hn]⟩
end

section
variable {ts : List (@AxTy (debugBuild b hb))} {ts' : List (@AxTy (releaseBuild b hb))} {s : TwinAxes b hb ts ts'}

theorem builds_numBinsList (hs : s.Agree) {a a'} (h : s.tup a a') :
    Builds Eq (@Tup.numBinsList (debugBuild b hb) ts a) (@Tup.numBinsList (releaseBuild b hb) ts' a') := by
  induction s with
  | nil => exact Builds.pure rfl
  | cons e es ih =>
    obtain ⟨a, as⟩ := a
    obtain ⟨a', as'⟩ := a'
    exact (hs.1.numBins h.1).eq_bind fun n => (ih hs.2 h.2).eq_bind fun ns => Builds.pure rfl

theorem builds_indices (hs : s.Agree) {a a' c c'} (h : s.tup a a') (hc : s.coords c c') :
    Builds Eq (@Tup.indices (debugBuild b hb) ts a c) (@Tup.indices (releaseBuild b hb) ts' a' c') := by
  induction s with
  | nil => exact Builds.pure rfl
  | cons e es ih =>
    obtain ⟨a, as⟩ := a
    obtain ⟨a', as'⟩ := a'
    obtain ⟨c, cs⟩ := c
    obtain ⟨c', cs'⟩ := c'
    refine (hs.1.index h.1 hc.1).eq_bind fun i => ?_
    cases i with
    | none => exact Builds.pure rfl
    | some i =>
      refine (ih hs.2 h.2 hc.2).eq_bind fun is => ?_
      cases is <;> exact Builds.pure rfl

theorem builds_bins (hs : s.Agree) {a a'} (is : List Nat) (h : s.tup a a') :
    Builds (BothOption s.intervals) (@Tup.bins (debugBuild b hb) ts a is) (@Tup.bins (releaseBuild b hb) ts' a' is) := by
  induction s generalizing is with
  | nil => exact Builds.pure trivial
  | cons e es ih =>
    obtain ⟨a, as⟩ := a
    obtain ⟨a', as'⟩ := a'
    cases is with
    | nil => exact Builds.throw
    | cons i is =>
      refine (hs.1.bin i h.1).bind fun x y hxy => ?_
      cases x with
      | none =>
        cases y with
        | none => exact Builds.pure trivial
        | some y => exact hxy.elim
      | some x =>
        cases y with
        | none => exact hxy.elim
        | some y =>
          refine (ih hs.2 is h.2).bind fun x' y' hxy' => ?_
          cases x' with
          | none =>
            cases y' with
            | none => exact Builds.pure trivial
            | some y' => exact hxy'.elim
          | some x' =>
            cases y' with
            | none => exact hxy'.elim
            | some y' => exact Builds.pure ⟨hxy, hxy'⟩
end

theorem builds_scanProd (ns : List Nat) (acc : Nat) : Builds Eq (@scanProd (debugBuild b hb) acc ns) (@scanProd (releaseBuild b hb) acc ns) := by
  induction ns generalizing acc with
  | nil => exact Builds.pure rfl
  | cons n ns ih => exact (builds_umul _ _).eq_bind fun acc => (ih acc).eq_bind fun rest => Builds.pure rfl

theorem builds_digits (ns : List Nat) (i : Nat) : Builds Eq (@digits (debugBuild b hb) i ns) (@digits (releaseBuild b hb) i ns) := by
  induction ns generalizing i with
  | nil => exact Builds.pure rfl
  | cons n ns ih =>
    exact (builds_umul _ _).eq_bind fun nb => (Builds.of_eq rfl).eq_bind fun v => (Builds.of_eq rfl).eq_bind fun i => (ih i).eq_bind fun _ => Builds.pure rfl

theorem builds_foldlM {α σ : Type} {f g : σ → α → Res σ} (h : ∀ x y, Builds Eq (f x y) (g x y)) (l : List α) (x : σ) : Builds Eq (l.foldlM f x) (l.foldlM g x) := by
  induction l generalizing x with
  | nil => exact Builds.pure rfl
  | cons y l ih =>
    rw [List.foldlM_cons, List.foldlM_cons]
    exact (h x y).eq_bind ih

theorem builds_flatten (shape is : List Nat) : Builds Eq (@AxesTuple.flatten (debugBuild b hb) shape is) (@AxesTuple.flatten (releaseBuild b hb) shape is) :=
  (Builds.of_eq rfl).eq_bind fun _ => builds_foldlM (fun _ _ => (builds_umul _ _).eq_bind fun _ => builds_uadd _ _) _ _

section
variable {t₀ t₁ : @AxTy (debugBuild b hb)} {ts : List (@AxTy (debugBuild b hb))} {t₀' t₁' : @AxTy (releaseBuild b hb)} {ts' : List (@AxTy (releaseBuild b hb))}
  {s : TwinAxes b hb (t₀ :: t₁ :: ts) (t₀' :: t₁' :: ts')}

theorem twinAxes_length {ts : List (@AxTy (debugBuild b hb))} {ts' : List (@AxTy (releaseBuild b hb))} (s : TwinAxes b hb ts ts') : ts.length = ts'.length := by
  induction s with
  | nil => rfl
  | cons _ _ ih => rw [List.length_cons, List.length_cons, ih]

/-- **C63**: axes tuples of two and more axes -/
theorem C63_tuple (hs : s.Agree) : s.tuple.Agree where
  index := by
    rintro a a' c c' ⟨h, hsh⟩ hc
    refine (builds_indices hs h hc).eq_bind fun is => ?_
    cases is with
    | none => exact Builds.pure rfl
    | some is =>
      rw [← hsh]
      exact (builds_flatten _ is).eq_bind fun _ => Builds.pure rfl
  numBins := by
    rintro a a' ⟨h, _⟩
    refine (builds_numBinsList hs h).eq_bind fun ns => ?_
    cases ns with
    | nil => exact Builds.pure rfl
    | cons n ns => exact (builds_foldlM (fun _ _ => builds_umul _ _) _ _).eq_bind fun _ => builds_umul _ _
  bin := by
    rintro a a' i ⟨h, _⟩
    exact (builds_numBinsList hs h).eq_bind fun ns => (builds_digits ns i).eq_bind fun is => builds_bins hs is h
  numDim _ := twinAxes_length s

/-- **C63**: making an axes tuple of two and more axes -/
theorem C63_from_tuple (hs : s.Agree) {a a'} (h : s.tup a a') :
    Builds s.axesTuple (@AxesTuple.fromTuple (debugBuild b hb) t₀ t₁ ts a) (@AxesTuple.fromTuple (releaseBuild b hb) t₀' t₁' ts' a') :=
  (builds_numBinsList hs h).eq_bind fun ns => (builds_scanProd ns 1).eq_bind fun _ => Builds.pure ⟨h, rfl⟩
end

end
end NdHist
