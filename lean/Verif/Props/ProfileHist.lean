import Verif.Props.Profile
/-!
# C63: debug and release builds compute the same (bin values and histograms)
-/
namespace NdHist

/-! ## Updates -/
section
variable {σ τ : Type}

theorem UpdBuilds.rfl {f : Upd σ} : UpdBuilds f f := fun _ => Or.inr ⟨Eq.refl _, Eq.refl _⟩

theorem UpdBuilds.store {f g : σ → Res σ} (h : ∀ s, Builds Eq (f s) (g s)) : UpdBuilds (Upd.store f) (Upd.store g) := by
  intro v
  have hv := h v
  unfold Upd.store
  cases hf : f v with
  | error p =>
    rw [hf] at hv
    rcases hv with hv | hv
    · exact Or.inl (by rw [hv])
    · rw [hv]; exact Or.inr ⟨Eq.refl _, Eq.refl _⟩
  | ok x =>
    rw [hf] at hv
    obtain ⟨y, hy, rfl⟩ := hv
    rw [hy]; exact Or.inr ⟨Eq.refl _, Eq.refl _⟩

theorem UpdBuilds.andThen {f g f' g' : Upd σ} (h : UpdBuilds f g) (h' : UpdBuilds f' g') : UpdBuilds (Upd.andThen f f') (Upd.andThen g g') := by
  intro v
  have hv := h v
  unfold Upd.andThen
  rcases hf : f v with ⟨w, _ | p⟩
  · rw [hf] at hv
    rcases hv with hv | ⟨hv, hp⟩
    · exact absurd hv (by simp)
    · rw [show g v = (w, none) from Prod.ext hv.symm hp]
      exact h' w
  · rw [hf] at hv
    rcases hv with hv | ⟨hv, hp⟩
    · exact Or.inl hv
    · rw [show g v = (w, some p) from Prod.ext hv.symm hp]
      exact Or.inr ⟨Eq.refl _, Eq.refl _⟩

theorem UpdBuilds.onField {f g : Upd τ} (h : UpdBuilds f g) (get : σ → τ) (set : σ → τ → σ) : UpdBuilds (Upd.onField get set f) (Upd.onField get set g) := by
  intro v
  rcases h (get v) with h | ⟨h, h'⟩
  · exact Or.inl h
  · exact Or.inr ⟨congrArg (set v) h, h'⟩

theorem UpdBuilds.withVal {α : Type} {x y : Res α} {f g : α → Upd σ} (h : Builds Eq x y) (hfg : ∀ a, UpdBuilds (f a) (g a)) :
    UpdBuilds (Upd.withVal x f) (Upd.withVal y g) := by
  intro v
  unfold Upd.withVal
  cases x with
  | error p =>
    rcases h with rfl | rfl
    · exact Or.inl (Eq.refl _)
    · exact Or.inr ⟨Eq.refl _, Eq.refl _⟩
  | ok a =>
    obtain ⟨b, rfl, rfl⟩ := h
    exact hfg a v
end

section
variable {b : Nat} {hb : 16 ≤ b}

/-! ## Bin values -/
section
variable {T : Type} {d : @RNum T (debugBuild b hb)} {r : @RNum T (releaseBuild b hb)} (hT : NumBuilds b hb T d r)
include hT

theorem builds_addAssign (x : T) : UpdBuilds (@addAssign T (debugBuild b hb) d x) (@addAssign T (releaseBuild b hb) r x) :=
  UpdBuilds.store fun _ => hT.add _ _

/-- **C63**: `fill` of numbers -/
theorem C63_fill_number : UpdBuilds (@instFill T (debugBuild b hb) d).fill (@instFill T (releaseBuild b hb) r).fill := by
  rw [show (@instFill T (releaseBuild b hb) r).fill = @addAssign T (releaseBuild b hb) r r.one from rfl, ← hT.one]
  exact builds_addAssign hT d.one

/-- **C63**: `fill_with` of numbers -/
theorem C63_fill_with_number (x : T) :
    UpdBuilds ((@instFillWith T (debugBuild b hb) d).fillWith x) ((@instFillWith T (releaseBuild b hb) r).fillWith x) :=
  builds_addAssign hT x

/-- **C63**: `fill_with` of `WeightedSum`, for weights of the type `T` -/
theorem C63_fill_with_weighted_sum {V : Type} {f f' : FillWith V T} (hf : ∀ w, UpdBuilds (f.fillWith w) (f'.fillWith w)) (w : T) :
    UpdBuilds ((@WeightedSum.instFillWithOfRNum V T (debugBuild b hb) d f).fillWith w) ((@WeightedSum.instFillWithOfRNum V T (releaseBuild b hb) r f').fillWith w) :=
  ((hf w).onField _ _).andThen (.withVal (hT.mul _ _) fun ww => (hf ww).onField _ _)

/-- **C63**: `fill_with` of `Mean` -/
theorem C63_fill_with_mean {O C : Type} {dc : @RNum C (debugBuild b hb)} {rc : @RNum C (releaseBuild b hb)} (hC : NumBuilds b hb C dc rc) (x : T) :
    UpdBuilds ((@Mean.instFillWith T O C (debugBuild b hb) d dc).fillWith x) ((@Mean.instFillWith T O C (releaseBuild b hb) r rc).fillWith x) := by
  refine ((builds_addAssign hT x).onField _ _).andThen ((UpdBuilds.withVal (hT.mul _ _) fun d2 => (builds_addAssign hT d2).onField _ _).andThen ?_)
  rw [← hC.one]
  exact (builds_addAssign hC _).onField _ _

/-- **C63**: `fill_with_weighted` of `WeightedMean`; `T: Mul<W>` is multiplication by a weight, which differs at most by overflow. -/
theorem C63_fill_with_weighted_mean {W O C : Type} {dw : @RNum W (debugBuild b hb)} {rw' : @RNum W (releaseBuild b hb)} {dc : @RNum C (debugBuild b hb)}
    {rc : @RNum C (releaseBuild b hb)} {m m' : RMulBy T W} (hW : NumBuilds b hb W dw rw') (hC : NumBuilds b hb C dc rc)
    (hm : ∀ x w, Builds Eq (m.mulBy x w) (m'.mulBy x w)) (x : T) (w : W) :
    UpdBuilds ((@WeightedMean.instFillWithWeighted T W O C (debugBuild b hb) d dw dc m).fillWithWeighted x w)
      ((@WeightedMean.instFillWithWeighted T W O C (releaseBuild b hb) r rw' rc m').fillWithWeighted x w) := by
  refine (UpdBuilds.withVal (hm _ _) fun y => (builds_addAssign hT y).onField _ _).andThen ?_
  refine (UpdBuilds.withVal ((hT.mul _ _).eq_bind fun v2 => hm _ _) fun y => (builds_addAssign hT y).onField _ _).andThen ?_
  refine ((builds_addAssign hW w).onField _ _).andThen ?_
  refine (UpdBuilds.withVal (hW.mul _ _) fun y => (builds_addAssign hW y).onField _ _).andThen ?_
  rw [← hC.one]
  exact (builds_addAssign hC _).onField _ _

/-- **C63**: the operators `+ - * /` and `+= -= *= /=` of numbers -/
theorem C63_ops : OpsBuilds T (@instROpsOfRNum T (debugBuild b hb) d) (@instROpsOfRNum T (releaseBuild b hb) r) where
  op o x y := by cases o <;> [exact hT.add x y; exact hT.sub x y; exact hT.mul x y; exact hT.div x y]
  opAssign o x := by
    cases o
    · exact .store fun l => hT.add l x
    · exact .store fun l => hT.sub l x
    · exact .store fun l => hT.mul l x
    · exact .store fun l => hT.div l x

/-- **C63**: the derived `Default` of numbers -/
theorem C63_default : (@instRDefault T (debugBuild b hb) d).dflt = (@instRDefault T (releaseBuild b hb) r).dflt := hT.zero
end

/-- **C63**: `fill` of `Sum` -/
theorem C63_fill_sum {V : Type} {f f' : Fill V} (hf : UpdBuilds f.fill f'.fill) : UpdBuilds (@Sum.instFill V f).fill (@Sum.instFill V f').fill :=
  hf.onField _ _

/-- **C63**: `fill_with` of `Sum` -/
theorem C63_fill_with_sum {V W : Type} {f f' : FillWith V W} (hf : ∀ w, UpdBuilds (f.fillWith w) (f'.fillWith w)) (w : W) :
    UpdBuilds ((@Sum.instFillWith V W f).fillWith w) ((@Sum.instFillWith V W f').fillWith w) :=
  (hf w).onField _ _

/-- **C63**: `fill` of `WeightedSum` -/
theorem C63_fill_weighted_sum {V : Type} {f f' : Fill V} (hf : UpdBuilds f.fill f'.fill) :
    UpdBuilds (@WeightedSum.instFill V f).fill (@WeightedSum.instFill V f').fill :=
  (hf.onField _ _).andThen (hf.onField _ _)

section
variable {T C W O : Type} [RFrom T O] [RFrom C O] [RFrom W O] [RAbs O] {d : @RNum O (debugBuild b hb)} {r : @RNum O (releaseBuild b hb)} (hO : NumBuilds b hb O d r)
include hO

/-- **C63**: `Mean::mean` -/
theorem C63_mean (m : Mean T O C) : Builds Eq (@Mean.mean T O C (debugBuild b hb) d _ _ m) (@Mean.mean T O C (releaseBuild b hb) r _ _ m) := hO.div _ _

/-- **C63**: `Mean::variance_of_samples` -/
theorem C63_mean_variance_of_samples (m : Mean T O C) :
    Builds Eq (@Mean.varianceOfSamples T O C (debugBuild b hb) d _ _ _ m) (@Mean.varianceOfSamples T O C (releaseBuild b hb) r _ _ _ m) :=
  (C63_mean hO m).eq_bind fun _ => (hO.mul _ _).eq_bind fun _ => (hO.div _ _).eq_bind fun _ => (hO.sub _ _).eq_bind fun _ => Builds.of_eq rfl

/-- **C63**: `Mean::variance_of_mean` -/
theorem C63_mean_variance_of_mean (m : Mean T O C) :
    Builds Eq (@Mean.varianceOfMean T O C (debugBuild b hb) d _ _ _ m) (@Mean.varianceOfMean T O C (releaseBuild b hb) r _ _ _ m) :=
  (C63_mean_variance_of_samples hO m).eq_bind fun _ => hO.div _ _

/-- **C63**: `WeightedMean::mean` -/
theorem C63_weighted_mean (m : WeightedMean T W O C) :
    Builds Eq (@WeightedMean.mean T W O C (debugBuild b hb) d _ _ m) (@WeightedMean.mean T W O C (releaseBuild b hb) r _ _ m) := hO.div _ _

/-- **C63**: `WeightedMean::variance_of_weighted_samples` -/
theorem C63_weighted_mean_variance_of_samples (m : WeightedMean T W O C) :
    Builds Eq (@WeightedMean.varianceOfSamples T W O C (debugBuild b hb) d _ _ m) (@WeightedMean.varianceOfSamples T W O C (releaseBuild b hb) r _ _ m) := by
  unfold WeightedMean.varianceOfSamples
  simp only [← hO.one]
  exact (C63_weighted_mean hO m).eq_bind fun _ => (hO.mul _ _).eq_bind fun _ => (hO.add _ _).eq_bind fun _ => (hO.mul _ _).eq_bind fun _ => (hO.mul _ _).eq_bind fun _ =>
    (hO.sub _ _).eq_bind fun _ => (hO.div _ _).eq_bind fun _ => hO.add _ _

/-- **C63**: `WeightedMean::variance_of_weighted_mean` -/
theorem C63_weighted_mean_variance_of_mean (m : WeightedMean T W O C) :
    Builds Eq (@WeightedMean.varianceOfMean T W O C (debugBuild b hb) d _ _ m) (@WeightedMean.varianceOfMean T W O C (releaseBuild b hb) r _ _ m) :=
  (C63_weighted_mean_variance_of_samples hO m).eq_bind fun _ => (hO.mul _ _).eq_bind fun _ => (hO.mul _ _).eq_bind fun _ => hO.div _ _
end


/-! ## `for` loops -/

theorem builds_updEach {V : Type} {f g : Nat → Upd V} (h : ∀ i, UpdBuilds (f i) (g i)) (vs : List V) (i : Nat) :
    BuildsUpd Eq (updEach f i vs) (updEach g i vs) := by
  induction vs generalizing i with
  | nil => exact Or.inr ⟨rfl, rfl⟩
  | cons v vs ih =>
    have hv := h i v
    unfold updEach
    rcases hf : f i v with ⟨w, _ | p⟩
    · rw [hf] at hv
      rcases hv with hv | ⟨hv, hp⟩
      · exact absurd hv (by simp)
      · rw [show g i v = (w, none) from Prod.ext hv.symm hp]
        rcases ih (i + 1) with h' | ⟨h', hp'⟩
        · exact Or.inl h'
        · exact Or.inr ⟨by simp only [h'], hp'⟩
    · rw [hf] at hv
      rcases hv with hv | ⟨hv, hp⟩
      · exact Or.inl hv
      · rw [show g i v = (w, some p) from Prod.ext hv.symm hp]
        exact Or.inr ⟨rfl, rfl⟩

theorem builds_updAt {V : Type} {f g : Upd V} (h : UpdBuilds f g) (vs : List V) (i : Nat) : BuildsUpd Eq (updAt f i vs) (updAt g i vs) := by
  induction vs generalizing i with
  | nil => cases i <;> exact Or.inr ⟨rfl, rfl⟩
  | cons v vs ih =>
    cases i with
    | zero =>
      rcases h v with h | ⟨h, hp⟩
      · exact Or.inl h
      · exact Or.inr ⟨by simp only [updAt, h], hp⟩
    | succ i =>
      rcases ih i with h | ⟨h, hp⟩
      · exact Or.inl h
      · exact Or.inr ⟨by simp only [updAt, h], hp⟩

theorem builds_zipUpd {V : Type} {f g : V → Upd V} (h : ∀ x, UpdBuilds (f x) (g x)) (ls rs : List V) : BuildsUpd Eq (zipUpd f ls rs) (zipUpd g ls rs) := by
  induction ls generalizing rs with
  | nil => exact Or.inr ⟨by simp only [zipUpd], by simp only [zipUpd]⟩
  | cons l ls ih =>
    cases rs with
    | nil => exact Or.inr ⟨rfl, rfl⟩
    | cons x rs =>
      have hv := h x l
      unfold zipUpd
      rcases hf : f x l with ⟨w, _ | p⟩
      · rw [hf] at hv
        rcases hv with hv | ⟨hv, hp⟩
        · exact absurd hv (by simp)
        · rw [show g x l = (w, none) from Prod.ext hv.symm hp]
          rcases ih rs with h' | ⟨h', hp'⟩
          · exact Or.inl h'
          · exact Or.inr ⟨by simp only [h'], hp'⟩
      · rw [hf] at hv
        rcases hv with hv | ⟨hv, hp⟩
        · exact Or.inl hv
        · rw [show g x l = (w, some p) from Prod.ext hv.symm hp]
          exact Or.inr ⟨rfl, rfl⟩

theorem builds_zipRes {V : Type} {f g : V → V → Res V} (h : ∀ x y, Builds Eq (f x y) (g x y)) (ls rs : List V) : Builds Eq (zipRes f ls rs) (zipRes g ls rs) := by
  induction ls generalizing rs with
  | nil => exact Builds.of_eq (by simp only [zipRes])
  | cons l ls ih =>
    cases rs with
    | nil => exact Builds.of_eq rfl
    | cons x rs => exact (h _ _).eq_bind fun _ => (ih rs).eq_bind fun _ => Builds.pure rfl

theorem forall₂_eq_iff {α : Type} {l l' : List α} (h : List.Forall₂ Eq l l') : l = l' := by
  induction h with
  | nil => rfl
  | cons h _ ih => rw [h, ih]

/-! ## Dense histograms -/
section
variable {A A' V : Type} {d : @Axis A (debugBuild b hb)} {r : @Axis A' (releaseBuild b hb)} {s : TwinAxis b hb A A' d r} (hA : s.Agree)
include hA

/-- **C63**: `VecHistogram::new` -/
theorem C63_vec_new {df df' : RDefault V} (hd : df.dflt = df'.dflt) {a a'} (h : s.axis a a') :
    Builds s.vec (@VecHistogram.new A V (debugBuild b hb) d df a) (@VecHistogram.new A' V (releaseBuild b hb) r df' a') :=
  (hA.numBins h).eq_bind fun n => Builds.pure ⟨h, by dsimp only; rw [hd]⟩

/-- **C63**: `VecHistogram::from_vec` -/
theorem C63_vec_from_vec {a a'} (h : s.axis a a') (vs : List V) :
    Builds (BothExcept s.vec) (@VecHistogram.fromVec A V (debugBuild b hb) d a vs) (@VecHistogram.fromVec A' V (releaseBuild b hb) r a' vs) := by
  refine (hA.numBins h).eq_bind fun n => ?_
  split
  · exact Builds.pure ⟨h, rfl⟩
  · exact Builds.pure rfl

/-- **C63**: `value` of dense histograms -/
theorem C63_vec_value {h : VecHistogram A V} {h' : VecHistogram A' V} {c c'} (hh : s.vec h h') (hc : s.coord c c') :
    Builds Eq (@VecHistogram.value A V (debugBuild b hb) d h c) (@VecHistogram.value A' V (releaseBuild b hb) r h' c') := by
  refine (hA.index hh.1 hc).eq_bind fun i => ?_
  cases i with
  | none => exact Builds.pure rfl
  | some i => exact Builds.pure (by rw [hh.2])

/-- **C63**: `iter` of dense histograms -/
theorem C63_vec_iter {h : VecHistogram A V} {h' : VecHistogram A' V} (hh : s.vec h h') :
    Builds (List.Forall₂ s.item) (@VecHistogram.iter A V (debugBuild b hb) d h) (@VecHistogram.iter A' V (releaseBuild b hb) r h') := by
  refine (C63_axis_iter hA hh.1).bind fun l l' hl => Builds.mapM hl ?_
  rintro ⟨i, x⟩ ⟨i', x'⟩ ⟨rfl, hx⟩
  refine Builds.eq_bind (Builds.of_eq (by simp only [VecHistogram.valueAtIndex, hh.2])) fun v => Builds.pure ⟨rfl, hx, rfl⟩

theorem builds_vec_valueMut {f g : Upd V} (hf : UpdBuilds f g) {h : VecHistogram A V} {h' : VecHistogram A' V} {c c'} (hh : s.vec h h') (hc : s.coord c c') :
    Builds (BothOption (BuildsUpd s.vec)) (@VecHistogram.valueMut A V (debugBuild b hb) d h c f) (@VecHistogram.valueMut A' V (releaseBuild b hb) r h' c' g) := by
  refine (hA.index hh.1 hc).eq_bind fun i => ?_
  cases i with
  | none => exact Builds.pure trivial
  | some i =>
    refine Builds.pure ?_
    obtain ⟨a, vs⟩ := h
    obtain ⟨a', vs'⟩ := h'
    obtain ⟨ha, hv⟩ := hh
    obtain rfl : vs = vs' := hv
    unfold VecHistogram.valueAtIndexMut
    dsimp only
    split
    · exact trivial
    · rcases builds_updAt hf vs i with hu | ⟨hu, hp⟩
      · exact Or.inl hu
      · exact Or.inr ⟨⟨ha, hu⟩, hp⟩

/-- **C63**: `value_mut` of dense histograms, followed by any use of the reference that differs at most by overflow -/
theorem C63_vec_value_mut {f g : Upd V} (hf : UpdBuilds f g) {h : VecHistogram A V} {h' : VecHistogram A' V} {c c'} (hh : s.vec h h') (hc : s.coord c c') :
    Builds (BothOption (BuildsUpd s.vec)) (@VecHistogram.valueMut A V (debugBuild b hb) d h c f) (@VecHistogram.valueMut A' V (releaseBuild b hb) r h' c' g) :=
  builds_vec_valueMut hA hf hh hc

omit hA in
theorem vec_call_eq (h : VecHistogram A V) (k : Call V d.Coordinate) :
    @VecHistogram.call A V (debugBuild b hb) d h k = match @VecHistogram.valueMut A V (debugBuild b hb) d h k.coord k.on with
      | .error p => (h, some p)
      | .ok none => (h, none)
      | .ok (some r) => r := by
  cases k <;> rfl

omit hA in
theorem vec_call_eq' (h : VecHistogram A' V) (k : Call V r.Coordinate) :
    @VecHistogram.call A' V (releaseBuild b hb) r h k = match @VecHistogram.valueMut A' V (releaseBuild b hb) r h k.coord k.on with
      | .error p => (h, some p)
      | .ok none => (h, none)
      | .ok (some r) => r := by
  cases k <;> rfl

/-- **C63**: one call of `fill`, `fill_with` or `fill_with_weighted` on a dense histogram -/
theorem C63_vec_call {h : VecHistogram A V} {h' : VecHistogram A' V} {k k'} (hh : s.vec h h') (hk : s.call k k') :
    BuildsUpd s.vec (@VecHistogram.call A V (debugBuild b hb) d h k) (@VecHistogram.call A' V (releaseBuild b hb) r h' k') := by
  rw [vec_call_eq, vec_call_eq']
  have hm := builds_vec_valueMut hA hk.2 hh hk.1
  revert hm
  cases @VecHistogram.valueMut A V (debugBuild b hb) d h k.coord k.on with
  | error p =>
    rintro (rfl | hm)
    · exact Or.inl rfl
    · rw [hm]; exact Or.inr ⟨hh, rfl⟩
  | ok x =>
    rintro ⟨y, hy, hxy⟩
    rw [hy]
    cases x <;> cases y
    · exact Or.inr ⟨hh, rfl⟩
    · exact hxy.elim
    · exact hxy.elim
    · exact hxy

/-- **C63**: any sequence of filling calls on a dense histogram -/
theorem C63_vec_program {ks ks'} (hk : List.Forall₂ s.call ks ks') {h : VecHistogram A V} {h' : VecHistogram A' V} (hh : s.vec h h') :
    BuildsUpd s.vec (@VecHistogram.callAll A V (debugBuild b hb) d h ks) (@VecHistogram.callAll A' V (releaseBuild b hb) r h' ks') := by
  induction hk generalizing h h' with
  | nil => exact Or.inr ⟨hh, rfl⟩
  | @cons k k' ks ks' hk _ ih =>
    have hc := C63_vec_call hA hh hk
    unfold VecHistogram.callAll
    revert hc
    rcases @VecHistogram.call A V (debugBuild b hb) d h k with ⟨w, _ | p⟩
    · rintro (hc | ⟨hc, hp⟩)
      · exact absurd hc (by simp)
      · rw [show @VecHistogram.call A' V (releaseBuild b hb) r h' k' = ((@VecHistogram.call A' V (releaseBuild b hb) r h' k').1, none) from Prod.ext rfl hp]
        exact ih hc
    · rintro (hc | ⟨hc, hp⟩)
      · exact Or.inl hc
      · rw [show @VecHistogram.call A' V (releaseBuild b hb) r h' k' = ((@VecHistogram.call A' V (releaseBuild b hb) r h' k').1, some p) from Prod.ext rfl hp]
        exact Or.inr ⟨hc, rfl⟩

omit hA in
/-- **C63**: `values_mut` of dense histograms, with a loop body that differs at most by overflow -/
theorem C63_vec_values_mut {f g : Upd V} (hf : UpdBuilds f g) {h : VecHistogram A V} {h' : VecHistogram A' V} (hh : s.vec h h') :
    BuildsUpd s.vec (h.valuesMut f) (h'.valuesMut g) := by
  unfold VecHistogram.valuesMut
  rw [← hh.2]
  rcases builds_updEach (fun _ => hf) h.values 0 with hu | ⟨hu, hp⟩
  · exact Or.inl hu
  · exact Or.inr ⟨⟨hh.1, hu⟩, hp⟩

omit hA in
theorem builds_iterMut_core {F G : Nat → Upd V} {a a'} (ha : s.axis a a') (vs ws : List V) {t t' : Option Panic} (ht : t = some .overflow ∨ t' = t) (hu : ∀ i, UpdBuilds (F i) (G i)) :
    BuildsUpd s.vec (({ axes := a, values := (updEach F 0 vs).1 ++ ws }, (updEach F 0 vs).2.or t) : VecHistogram A V × Option Panic)
      (({ axes := a', values := (updEach G 0 vs).1 ++ ws }, (updEach G 0 vs).2.or t') : VecHistogram A' V × Option Panic) := by
  rcases builds_updEach hu vs 0 with hu | ⟨hu, hp⟩
  · exact Or.inl (by dsimp only; rw [hu]; rfl)
  · rcases ht with rfl | rfl
    · rcases hq : (updEach F 0 vs).2 with _ | q
      · exact Or.inl rfl
      · exact Or.inr ⟨⟨ha, by dsimp only; rw [hu]⟩, by dsimp only; rw [hp, hq]; rfl⟩
    · exact Or.inr ⟨⟨ha, by dsimp only; rw [hu]⟩, by dsimp only; rw [hp]⟩

/-- **C63**: `iter_mut` of dense histograms, with a loop body that differs at most by overflow -/
theorem C63_vec_iter_mut {f : Nat → d.Interval → Upd V} {g : Nat → r.Interval → Upd V} (hf : ∀ i x y, s.interval x y → UpdBuilds (f i x) (g i y))
    {h : VecHistogram A V} {h' : VecHistogram A' V} (hh : s.vec h h') :
    BuildsUpd s.vec (@VecHistogram.iterMut A V (debugBuild b hb) d h f) (@VecHistogram.iterMut A' V (releaseBuild b hb) r h' g) := by
  have hn := hA.numBins hh.1
  unfold VecHistogram.iterMut
  revert hn
  cases @Axis.numBins A (debugBuild b hb) d h.axes with
  | error p =>
    rintro (rfl | hm)
    · exact Or.inl rfl
    · rw [hm]; exact Or.inr ⟨hh, rfl⟩
  | ok n =>
    rintro ⟨_, hy, rfl⟩
    rw [hy]
    dsimp only
    rw [← hh.2]
    refine builds_iterMut_core hh.1 _ _ ?_ fun i v => ?_
    · unfold VecHistogram.iterMutTail
      rw [← hh.2]
      split
      · have hm := hA.bin h.values.length hh.1
        revert hm
        cases @Axis.bin A (debugBuild b hb) d h.axes h.values.length with
        | error p =>
          rintro (rfl | hm)
          · exact Or.inl rfl
          · rw [hm]; exact Or.inr rfl
        | ok x =>
          rintro ⟨y, hy, hxy⟩
          rw [hy]
          cases x <;> cases y
          · exact Or.inr rfl
          · exact hxy.elim
          · exact hxy.elim
          · exact Or.inr rfl
      · exact Or.inr rfl
    have hm := hA.bin i hh.1
    revert hm
    cases @Axis.bin A (debugBuild b hb) d h.axes i with
    | error p =>
      rintro (rfl | hm)
      · exact Or.inl rfl
      · rw [hm]; exact Or.inr ⟨rfl, rfl⟩
    | ok x =>
      rintro ⟨y, hy, hxy⟩
      rw [hy]
      cases x <;> cases y
      · exact Or.inr ⟨rfl, rfl⟩
      · exact hxy.elim
      · exact hxy.elim
      · exact hf _ _ _ hxy v

omit hA in
/-- **C63**: `&l op &r` of dense histograms -/
theorem C63_vec_op_borrow {p : PEq A} {p' : PEq A'} (he : s.Eqs p p') {q q' : ROps V} (hq : OpsBuilds V q q') (o : Op)
    {h₁ h₂ : VecHistogram A V} {h₁' h₂' : VecHistogram A' V} (hh₁ : s.vec h₁ h₁') (hh₂ : s.vec h₂ h₂') :
    Builds (BothExcept s.vec) (@VecHistogram.opBorrow A V p q o h₁ h₂) (@VecHistogram.opBorrow A' V p' q' o h₁' h₂') := by
  unfold VecHistogram.opBorrow
  rw [← he _ _ _ _ hh₁.1 hh₂.1, ← hh₁.2, ← hh₂.2]
  split
  · exact Builds.pure rfl
  · refine (builds_zipRes (hq.op o) _ _).eq_bind fun vs => ?_
    exact Builds.pure ⟨hh₁.1, rfl⟩

omit hA in
/-- **C63**: `&l op &x` of dense histograms -/
theorem C63_vec_op_scalar {q q' : ROps V} (hq : OpsBuilds V q q') (o : Op) {h : VecHistogram A V} {h' : VecHistogram A' V} (hh : s.vec h h') (x : V) :
    Builds s.vec (@VecHistogram.opScalar A V q o h x) (@VecHistogram.opScalar A' V q' o h' x) := by
  unfold VecHistogram.opScalar
  rw [← hh.2]
  refine (Builds.mapM (forall₂_eq h.values) fun y _ hy => hy ▸ hq.op o y x).bind fun vs vs' hv => Builds.pure ⟨hh.1, forall₂_eq_iff hv⟩

omit hA in
/-- **C63**: `l op &r` of dense histograms -/
theorem C63_vec_op_owned {p : PEq A} {p' : PEq A'} (he : s.Eqs p p') {q q' : ROps V} (hq : OpsBuilds V q q') (o : Op)
    {h₁ h₂ : VecHistogram A V} {h₁' h₂' : VecHistogram A' V} (hh₁ : s.vec h₁ h₁') (hh₂ : s.vec h₂ h₂') :
    Builds (BothExcept s.vec) (@VecHistogram.opOwned A V p q o h₁ h₂) (@VecHistogram.opOwned A' V p' q' o h₁' h₂') := by
  unfold VecHistogram.opOwned
  rw [← he _ _ _ _ hh₁.1 hh₂.1, ← hh₁.2, ← hh₂.2]
  split
  · exact Builds.ok rfl
  · have hz := builds_zipUpd (hq.opAssign o) h₁.values h₂.values
    revert hz
    dsimp only
    rcases zipUpd (q.opAssign o) h₁.values h₂.values with ⟨w, _ | e⟩
    · rintro (hz | ⟨hz, hp⟩)
      · exact absurd hz (by simp)
      · dsimp only at hp
        rw [hp]; exact Builds.ok ⟨hh₁.1, hz⟩
    · rintro (hz | ⟨hz, hp⟩)
      · exact Or.inl (by simpa using hz)
      · dsimp only at hp
        rw [hp]; exact Builds.error

omit hA in
/-- **C63**: `l op= &r` of dense histograms -/
theorem C63_vec_op_assign {p : PEq A} {p' : PEq A'} (he : s.Eqs p p') {q q' : ROps V} (hq : OpsBuilds V q q') (o : Op)
    {h₁ h₂ : VecHistogram A V} {h₁' h₂' : VecHistogram A' V} (hh₁ : s.vec h₁ h₁') (hh₂ : s.vec h₂ h₂') :
    BuildsUpd s.vec (@VecHistogram.opAssign A V p q o h₁ h₂) (@VecHistogram.opAssign A' V p' q' o h₁' h₂') := by
  unfold VecHistogram.opAssign
  rw [← he _ _ _ _ hh₁.1 hh₂.1, ← hh₁.2, ← hh₂.2]
  split
  · exact Or.inr ⟨hh₁, rfl⟩
  · rcases builds_zipUpd (hq.opAssign o) h₁.values h₂.values with hz | ⟨hz, hp⟩
    · exact Or.inl hz
    · exact Or.inr ⟨⟨hh₁.1, hz⟩, hp⟩

end

/-! ## Sparse histograms

The order in which a `HashMap` yields its entries is arbitrary in both builds; the theorems compare runs in which it is the same. -/

theorem builds_entryUpd {V : Type} {df df' : RDefault V} (hd : df.dflt = df'.dflt) {f g : Upd V} (hf : UpdBuilds f g) (m : HMap Nat V) (i : Nat) :
    BuildsUpd Eq (@HashHistogram.entryUpd V df m i f) (@HashHistogram.entryUpd V df' m i g) := by
  unfold HashHistogram.entryUpd
  rw [← hd]
  rcases hf ((m.get i).getD df.dflt) with h | ⟨h, hp⟩
  · exact Or.inl h
  · exact Or.inr ⟨congrArg (m.insert i) h, hp⟩

theorem builds_updKeys {V : Type} {f g : Nat → Upd V} (h : ∀ i, UpdBuilds (f i) (g i)) (ks : List Nat) (m : HMap Nat V) :
    BuildsUpd Eq (HashHistogram.updKeys f ks m) (HashHistogram.updKeys g ks m) := by
  induction ks generalizing m with
  | nil => exact Or.inr ⟨rfl, rfl⟩
  | cons k ks ih =>
    unfold HashHistogram.updKeys
    cases m.get k with
    | none => exact ih m
    | some v =>
      have hv := h k v
      dsimp only
      rcases hf : f k v with ⟨w, _ | p⟩
      · rw [hf] at hv
        rcases hv with hv | ⟨hv, hp⟩
        · exact absurd hv (by simp)
        · rw [show g k v = (w, none) from Prod.ext hv.symm hp]
          exact ih _
      · rw [hf] at hv
        rcases hv with hv | ⟨hv, hp⟩
        · exact Or.inl hv
        · rw [show g k v = (w, some p) from Prod.ext hv.symm hp]
          exact Or.inr ⟨rfl, rfl⟩

theorem builds_mergeLoop {V : Type} {df df' : RDefault V} (hd : df.dflt = df'.dflt) {q q' : ROps V} (hq : OpsBuilds V q q') (o : Op) (l : List (Nat × V)) (m : HMap Nat V) :
    BuildsUpd Eq (@HashHistogram.mergeLoop V q df o l m) (@HashHistogram.mergeLoop V q' df' o l m) := by
  induction l generalizing m with
  | nil => exact Or.inr ⟨rfl, rfl⟩
  | cons x l ih =>
    obtain ⟨i, x⟩ := x
    have hv := builds_entryUpd hd (hq.opAssign o x) m i
    unfold HashHistogram.mergeLoop
    rcases hf : @HashHistogram.entryUpd V df m i (q.opAssign o x) with ⟨w, _ | p⟩
    · rw [hf] at hv
      rcases hv with hv | ⟨hv, hp⟩
      · exact absurd hv (by simp)
      · rw [show @HashHistogram.entryUpd V df' m i (q'.opAssign o x) = (w, none) from Prod.ext hv.symm hp]
        exact ih _
    · rw [hf] at hv
      rcases hv with hv | ⟨hv, hp⟩
      · exact Or.inl hv
      · rw [show @HashHistogram.entryUpd V df' m i (q'.opAssign o x) = (w, some p) from Prod.ext hv.symm hp]
        exact Or.inr ⟨rfl, rfl⟩

section
variable {A A' V : Type} {d : @Axis A (debugBuild b hb)} {r : @Axis A' (releaseBuild b hb)} {s : TwinAxis b hb A A' d r} (hA : s.Agree)
include hA

omit hA in
/-- **C63**: `HashHistogram::new` -/
theorem C63_hash_new {a a'} (h : s.axis a a') : s.hash (HashHistogram.new a : HashHistogram A V) (HashHistogram.new a') := ⟨h, rfl⟩

/-- **C63**: `HashHistogram::from_map` -/
theorem C63_hash_from_map {a a'} (h : s.axis a a') (m : HMap Nat V) :
    Builds (BothExcept s.hash) (@HashHistogram.fromMap A V (debugBuild b hb) d a m) (@HashHistogram.fromMap A' V (releaseBuild b hb) r a' m) := by
  unfold HashHistogram.fromMap
  have hall : ∀ all : Bool, Builds (BothExcept s.hash) (if all = true then pure (.ok { axes := a, values := m }) else pure (.error (Error.AxisError AxisError.InvalidNumberOfBins)))
      (if all = true then pure (.ok { axes := a', values := m }) else pure (.error (Error.AxisError AxisError.InvalidNumberOfBins))) := by
    intro all
    split
    · exact Builds.pure ⟨h, rfl⟩
    · exact Builds.pure rfl
  dsimp only
  split
  · exact hall true
  · exact (hA.numBins h).eq_bind fun n => hall _

/-- **C63**: `value` of sparse histograms -/
theorem C63_hash_value {h : HashHistogram A V} {h' : HashHistogram A' V} {c c'} (hh : s.hash h h') (hc : s.coord c c') :
    Builds Eq (@HashHistogram.value A V (debugBuild b hb) d h c) (@HashHistogram.value A' V (releaseBuild b hb) r h' c') := by
  refine (hA.index hh.1 hc).eq_bind fun i => ?_
  cases i with
  | none => exact Builds.pure rfl
  | some i => exact Builds.pure (by unfold HashHistogram.valueAtIndex; rw [hh.2])

/-- **C63**: `iter` of sparse histograms -/
theorem C63_hash_iter {h : HashHistogram A V} {h' : HashHistogram A' V} (hh : s.hash h h') (o : h.values.Order) (o' : h'.values.Order) (ho : o.list = o'.list) :
    Builds (List.Forall₂ s.item) (@HashHistogram.iter A V (debugBuild b hb) d h o) (@HashHistogram.iter A' V (releaseBuild b hb) r h' o') := by
  unfold HashHistogram.iter
  rw [← ho]
  refine Builds.mapM (forall₂_eq o.list) ?_
  rintro ⟨i, v⟩ _ rfl
  exact (hA.bin i hh.1).bind fun x y hxy => (builds_expect hxy).bind fun x y hxy => Builds.pure ⟨rfl, hxy, rfl⟩

/-- **C63**: `value_mut` of sparse histograms, followed by any use of the reference that differs at most by overflow -/
theorem C63_hash_value_mut {f g : Upd V} (hf : UpdBuilds f g) {h : HashHistogram A V} {h' : HashHistogram A' V} {c c'} (hh : s.hash h h') (hc : s.coord c c') :
    Builds (BothOption (BuildsUpd s.hash)) (@HashHistogram.valueMut A V (debugBuild b hb) d h c f) (@HashHistogram.valueMut A' V (releaseBuild b hb) r h' c' g) := by
  refine (hA.index hh.1 hc).eq_bind fun i => ?_
  cases i with
  | none => exact Builds.pure trivial
  | some i =>
    refine Builds.pure ?_
    obtain ⟨a, vs⟩ := h
    obtain ⟨a', vs'⟩ := h'
    obtain ⟨ha, hv⟩ := hh
    obtain rfl : vs = vs' := hv
    unfold HashHistogram.valueAtIndexMut
    dsimp only
    split
    · exact trivial
    · rename_i v _
      rcases hf v with hu | ⟨hu, hp⟩
      · exact Or.inl hu
      · exact Or.inr ⟨⟨ha, congrArg (vs.insert i) hu⟩, hp⟩

omit hA in
theorem hash_call_eq {df : RDefault V} (h : HashHistogram A V) (k : Call V d.Coordinate) :
    @HashHistogram.call A V (debugBuild b hb) d df h k = match @Axis.index A (debugBuild b hb) d h.axes k.coord with
      | .error p => (h, some p)
      | .ok none => (h, none)
      | .ok (some i) => let r := HashHistogram.entryUpd h.values i k.on; ({ h with values := r.1 }, r.2) := by
  cases k <;> rfl

omit hA in
theorem hash_call_eq' {df : RDefault V} (h : HashHistogram A' V) (k : Call V r.Coordinate) :
    @HashHistogram.call A' V (releaseBuild b hb) r df h k = match @Axis.index A' (releaseBuild b hb) r h.axes k.coord with
      | .error p => (h, some p)
      | .ok none => (h, none)
      | .ok (some i) => let r := HashHistogram.entryUpd h.values i k.on; ({ h with values := r.1 }, r.2) := by
  cases k <;> rfl

/-- **C63**: one call of `fill`, `fill_with` or `fill_with_weighted` on a sparse histogram -/
theorem C63_hash_call {df df' : RDefault V} (hd : df.dflt = df'.dflt) {h : HashHistogram A V} {h' : HashHistogram A' V} {k k'} (hh : s.hash h h') (hk : s.call k k') :
    BuildsUpd s.hash (@HashHistogram.call A V (debugBuild b hb) d df h k) (@HashHistogram.call A' V (releaseBuild b hb) r df' h' k') := by
  rw [hash_call_eq, hash_call_eq']
  have hm := hA.index hh.1 hk.1
  revert hm
  cases @Axis.index A (debugBuild b hb) d h.axes k.coord with
  | error p =>
    rintro (rfl | hm)
    · exact Or.inl rfl
    · rw [hm]; exact Or.inr ⟨hh, rfl⟩
  | ok x =>
    rintro ⟨_, hy, rfl⟩
    rw [hy]
    cases x with
    | none => exact Or.inr ⟨hh, rfl⟩
    | some i =>
      dsimp only
      rw [← hh.2]
      rcases builds_entryUpd hd hk.2 h.values i with hu | ⟨hu, hp⟩
      · exact Or.inl hu
      · exact Or.inr ⟨⟨hh.1, hu⟩, hp⟩

/-- **C63**: any sequence of filling calls on a sparse histogram -/
theorem C63_hash_program {df df' : RDefault V} (hd : df.dflt = df'.dflt) {ks ks'} (hk : List.Forall₂ s.call ks ks') {h : HashHistogram A V} {h' : HashHistogram A' V}
    (hh : s.hash h h') :
    BuildsUpd s.hash (@HashHistogram.callAll A V (debugBuild b hb) d df h ks) (@HashHistogram.callAll A' V (releaseBuild b hb) r df' h' ks') := by
  induction hk generalizing h h' with
  | nil => exact Or.inr ⟨hh, rfl⟩
  | @cons k k' ks ks' hk _ ih =>
    have hc := C63_hash_call hA hd hh hk
    unfold HashHistogram.callAll
    revert hc
    rcases @HashHistogram.call A V (debugBuild b hb) d df h k with ⟨w, _ | p⟩
    · rintro (hc | ⟨hc, hp⟩)
      · exact absurd hc (by simp)
      · rw [show @HashHistogram.call A' V (releaseBuild b hb) r df' h' k' = ((@HashHistogram.call A' V (releaseBuild b hb) r df' h' k').1, none) from Prod.ext rfl hp]
        exact ih hc
    · rintro (hc | ⟨hc, hp⟩)
      · exact Or.inl hc
      · rw [show @HashHistogram.call A' V (releaseBuild b hb) r df' h' k' = ((@HashHistogram.call A' V (releaseBuild b hb) r df' h' k').1, some p) from Prod.ext rfl hp]
        exact Or.inr ⟨hc, rfl⟩

omit hA in
/-- **C63**: `values_mut` of sparse histograms, with a loop body that differs at most by overflow -/
theorem C63_hash_values_mut {f g : Upd V} (hf : UpdBuilds f g) {h : HashHistogram A V} {h' : HashHistogram A' V} (hh : s.hash h h')
    (o : h.values.Order) (o' : h'.values.Order) (ho : o.list = o'.list) : BuildsUpd s.hash (h.valuesMut o f) (h'.valuesMut o' g) := by
  unfold HashHistogram.valuesMut
  rw [← ho, ← hh.2]
  rcases builds_updKeys (fun _ => hf) (o.list.map (·.1)) h.values with hu | ⟨hu, hp⟩
  · exact Or.inl hu
  · exact Or.inr ⟨⟨hh.1, hu⟩, hp⟩

omit hA in
theorem builds_hash_iterMut_core {F G : Nat → Upd V} {a a'} (ha : s.axis a a') (m : HMap Nat V) (ks : List Nat) (hu : ∀ i, UpdBuilds (F i) (G i)) :
    BuildsUpd s.hash (({ axes := a, values := (HashHistogram.updKeys F ks m).1 }, (HashHistogram.updKeys F ks m).2) : HashHistogram A V × Option Panic)
      (({ axes := a', values := (HashHistogram.updKeys G ks m).1 }, (HashHistogram.updKeys G ks m).2) : HashHistogram A' V × Option Panic) := by
  rcases builds_updKeys hu ks m with hu | ⟨hu, hp⟩
  · exact Or.inl hu
  · exact Or.inr ⟨⟨ha, hu⟩, hp⟩

/-- **C63**: `iter_mut` of sparse histograms, with a loop body that differs at most by overflow -/
theorem C63_hash_iter_mut {f : Nat → d.Interval → Upd V} {g : Nat → r.Interval → Upd V} (hf : ∀ i x y, s.interval x y → UpdBuilds (f i x) (g i y))
    {h : HashHistogram A V} {h' : HashHistogram A' V} (hh : s.hash h h') (o : h.values.Order) (o' : h'.values.Order) (ho : o.list = o'.list) :
    BuildsUpd s.hash (@HashHistogram.iterMut A V (debugBuild b hb) d h o f) (@HashHistogram.iterMut A' V (releaseBuild b hb) r h' o' g) := by
  unfold HashHistogram.iterMut
  rw [← ho, ← hh.2]
  refine builds_hash_iterMut_core hh.1 _ _ fun i v => ?_
  have hm := hA.bin i hh.1
  revert hm
  cases @Axis.bin A (debugBuild b hb) d h.axes i with
  | error p =>
    rintro (rfl | hm)
    · exact Or.inl rfl
    · rw [hm]; exact Or.inr ⟨rfl, rfl⟩
  | ok x =>
    rintro ⟨y, hy, hxy⟩
    rw [hy]
    cases x <;> cases y
    · exact Or.inr ⟨rfl, rfl⟩
    · exact hxy.elim
    · exact hxy.elim
    · exact hf _ _ _ hxy v

omit hA in
/-- **C63**: `&l op &r` of sparse histograms -/
theorem C63_hash_op_borrow {p : PEq A} {p' : PEq A'} (he : s.Eqs p p') {q q' : ROps V} (hq : OpsBuilds V q q') {df df' : RDefault V} (hd : df.dflt = df'.dflt) (o : Op)
    {h₁ h₂ : HashHistogram A V} {h₁' h₂' : HashHistogram A' V} (hh₁ : s.hash h₁ h₁') (hh₂ : s.hash h₂ h₂')
    (ko : HashHistogram.KeyOrder h₁ h₂) (ko' : HashHistogram.KeyOrder h₁' h₂') (hko : ko.list = ko'.list) :
    Builds (BothExcept s.hash) (@HashHistogram.opBorrow A V p q df o h₁ h₂ ko) (@HashHistogram.opBorrow A' V p' q' df' o h₁' h₂' ko') := by
  unfold HashHistogram.opBorrow
  rw [← he _ _ _ _ hh₁.1 hh₂.1, ← hh₁.2, ← hh₂.2, ← hko, ← hd]
  split
  · exact Builds.pure rfl
  · refine (Builds.mapM (S := Eq) (forall₂_eq ko.list) ?_).bind fun es es' hes => ?_
    · rintro i _ rfl
      dsimp only
      split
      · exact (hq.op _ _ _).eq_bind fun nv => Builds.pure rfl
      · exact (hq.op _ _ _).eq_bind fun nv => Builds.pure rfl
      · exact (hq.op _ _ _).eq_bind fun nv => Builds.pure rfl
      · exact Builds.error
    · obtain rfl := forall₂_eq_iff hes
      exact Builds.pure ⟨hh₁.1, rfl⟩

omit hA in
/-- **C63**: `l op &r` of sparse histograms -/
theorem C63_hash_op_owned {p : PEq A} {p' : PEq A'} (he : s.Eqs p p') {q q' : ROps V} (hq : OpsBuilds V q q') {df df' : RDefault V} (hd : df.dflt = df'.dflt) (o : Op)
    {h₁ h₂ : HashHistogram A V} {h₁' h₂' : HashHistogram A' V} (hh₁ : s.hash h₁ h₁') (hh₂ : s.hash h₂ h₂')
    (ro : h₂.values.Order) (ro' : h₂'.values.Order) (hro : ro.list = ro'.list) :
    Builds (BothExcept s.hash) (@HashHistogram.opOwned A V p q df o h₁ h₂ ro) (@HashHistogram.opOwned A' V p' q' df' o h₁' h₂' ro') := by
  unfold HashHistogram.opOwned
  rw [← he _ _ _ _ hh₁.1 hh₂.1, ← hh₁.2, ← hro]
  split
  · exact Builds.ok rfl
  · have hz := builds_mergeLoop hd hq o ro.list h₁.values
    revert hz
    dsimp only
    rcases @HashHistogram.mergeLoop V q df o ro.list h₁.values with ⟨w, _ | e⟩
    · rintro (hz | ⟨hz, hp⟩)
      · exact absurd hz (by simp)
      · dsimp only at hp
        rw [hp]; exact Builds.ok ⟨hh₁.1, hz⟩
    · rintro (hz | ⟨hz, hp⟩)
      · exact Or.inl (by simpa using hz)
      · dsimp only at hp
        rw [hp]; exact Builds.error

omit hA in
/-- **C63**: `l op= &r` of sparse histograms -/
theorem C63_hash_op_assign {p : PEq A} {p' : PEq A'} (he : s.Eqs p p') {q q' : ROps V} (hq : OpsBuilds V q q') {df df' : RDefault V} (hd : df.dflt = df'.dflt) (o : Op)
    {h₁ h₂ : HashHistogram A V} {h₁' h₂' : HashHistogram A' V} (hh₁ : s.hash h₁ h₁') (hh₂ : s.hash h₂ h₂')
    (ro : h₂.values.Order) (ro' : h₂'.values.Order) (hro : ro.list = ro'.list) :
    BuildsUpd s.hash (@HashHistogram.opAssign A V p q df o h₁ h₂ ro) (@HashHistogram.opAssign A' V p' q' df' o h₁' h₂' ro') := by
  unfold HashHistogram.opAssign
  rw [← he _ _ _ _ hh₁.1 hh₂.1, ← hh₁.2, ← hro]
  split
  · exact Or.inr ⟨hh₁, rfl⟩
  · rcases builds_mergeLoop hd hq o ro.list h₁.values with hz | ⟨hz, hp⟩
    · exact Or.inl hz
    · exact Or.inr ⟨⟨hh₁.1, hz⟩, hp⟩

end

/-! ## Equality of axes -/

/-- **C63**: `==` of axes that are not tuples: the same code in both builds -/
theorem C63_axis_eq {A : Type} {d : @Axis A (debugBuild b hb)} {r : @Axis A (releaseBuild b hb)} (p : PEq A) : (TwinAxis.equal d r).Eqs p p := by
  rintro a₁ _ a₂ _ rfl rfl
  rfl

/-- **C63**: `==` of one-dimensional axes tuples -/
theorem C63_tuple1_eq {A A' : Type} {d : @Axis A (debugBuild b hb)} {r : @Axis A' (releaseBuild b hb)} {s : TwinAxis b hb A A' d r} {p : PEq A} {p' : PEq A'}
    (he : s.Eqs p p') : s.tuple1.Eqs (@instPEqAxesTuple1 A p) (@instPEqAxesTuple1 A' p') := by
  rintro a₁ a₁' a₂ a₂' ⟨h₁, hs₁⟩ ⟨h₂, hs₂⟩
  show (_ && _) = (_ && _)
  rw [he _ _ _ _ h₁ h₂, hs₁, hs₂]

/-- `==` of each pair of components of two tuples of axes gives the same answer in the two builds. -/
def TwinAxes.Eqs {ts : List (@AxTy (debugBuild b hb))} {ts' : List (@AxTy (releaseBuild b hb))} (s : TwinAxes b hb ts ts')
    (p : @TupPEq (debugBuild b hb) ts) (p' : @TupPEq (releaseBuild b hb) ts') : Prop :=
  ∀ a₁ a₁' a₂ a₂', s.tup a₁ a₁' → s.tup a₂ a₂' → @TupPEq.peq (debugBuild b hb) ts p a₁ a₂ = @TupPEq.peq (releaseBuild b hb) ts' p' a₁' a₂'

theorem tupEq_nil : (TwinAxes.nil : TwinAxes b hb [] []).Eqs (@instTupPEqNilAxTy (debugBuild b hb)) (@instTupPEqNilAxTy (releaseBuild b hb)) :=
  fun _ _ _ _ _ _ => rfl

theorem tupEq_cons {t : @AxTy (debugBuild b hb)} {t' : @AxTy (releaseBuild b hb)} {ts : List (@AxTy (debugBuild b hb))} {ts' : List (@AxTy (releaseBuild b hb))}
    {e : TwinAxis b hb (@AxTy.A (debugBuild b hb) t) (@AxTy.A (releaseBuild b hb) t') (@AxTy.inst (debugBuild b hb) t) (@AxTy.inst (releaseBuild b hb) t')}
    {es : TwinAxes b hb ts ts'} {p : PEq (@AxTy.A (debugBuild b hb) t)} {p' : PEq (@AxTy.A (releaseBuild b hb) t')} {ps : @TupPEq (debugBuild b hb) ts}
    {ps' : @TupPEq (releaseBuild b hb) ts'} (he : e.Eqs p p') (hes : es.Eqs ps ps') :
    (TwinAxes.cons e es).Eqs (@instTupPEqConsAxTyOfPEqA (debugBuild b hb) t ts p ps) (@instTupPEqConsAxTyOfPEqA (releaseBuild b hb) t' ts' p' ps') := by
  rintro ⟨a₁, as₁⟩ ⟨a₁', as₁'⟩ ⟨a₂, as₂⟩ ⟨a₂', as₂'⟩ ⟨h₁, hs₁⟩ ⟨h₂, hs₂⟩
  show (_ && _) = (_ && _)
  rw [he _ _ _ _ h₁ h₂, hes _ _ _ _ hs₁ hs₂]

/-- **C63**: `==` of axes tuples of two and more axes (`tupEq_nil`, `tupEq_cons` for the hypothesis) -/
theorem C63_tuple_eq {t₀ t₁ : @AxTy (debugBuild b hb)} {ts : List (@AxTy (debugBuild b hb))} {t₀' t₁' : @AxTy (releaseBuild b hb)} {ts' : List (@AxTy (releaseBuild b hb))}
    {s : TwinAxes b hb (t₀ :: t₁ :: ts) (t₀' :: t₁' :: ts')} {p : @TupPEq (debugBuild b hb) (t₀ :: t₁ :: ts)} {p' : @TupPEq (releaseBuild b hb) (t₀' :: t₁' :: ts')}
    (he : s.Eqs p p') : s.tuple.Eqs (@instPEqAxesTupleOfTupPEqConsAxTy (debugBuild b hb) t₀ t₁ ts p) (@instPEqAxesTupleOfTupPEqConsAxTy (releaseBuild b hb) t₀' t₁' ts' p') := by
  rintro a₁ a₁' a₂ a₂' ⟨h₁, hs₁⟩ ⟨h₂, hs₂⟩
  show (_ && _) = (_ && _)
  rw [he _ _ _ _ h₁ h₂, hs₁, hs₂]

/-! ## Whole programs -/

/-- **C63**: `ndhistogram!(x; V)`, one axis -/
theorem C63_ndhistogram1 {A A' V : Type} {d : @Axis A (debugBuild b hb)} {r : @Axis A' (releaseBuild b hb)} {s : TwinAxis b hb A A' d r} (hA : s.Agree)
    {df df' : RDefault V} (hd : df.dflt = df'.dflt) {a a'} (h : s.axis a a') :
    Builds s.tuple1.vec (@ndhistogram1 (debugBuild b hb) A d V df a) (@ndhistogram1 (releaseBuild b hb) A' r V df' a') :=
  (C63_from_tuple1 hA h).bind fun _ _ hx => C63_vec_new (C63_tuple1 hA) hd hx

/-- **C63**: `ndhistogram!(x, y, ...; V)`, two and more axes -/
theorem C63_ndhistogram {t₀ t₁ : @AxTy (debugBuild b hb)} {ts : List (@AxTy (debugBuild b hb))} {t₀' t₁' : @AxTy (releaseBuild b hb)} {ts' : List (@AxTy (releaseBuild b hb))}
    {s : TwinAxes b hb (t₀ :: t₁ :: ts) (t₀' :: t₁' :: ts')} (hs : s.Agree) {V : Type} {df df' : RDefault V} (hd : df.dflt = df'.dflt) {a a'} (h : s.tup a a') :
    Builds s.tuple.vec (@ndhistogram (debugBuild b hb) t₀ t₁ ts V df a) (@ndhistogram (releaseBuild b hb) t₀' t₁' ts' V df' a') :=
  (C63_from_tuple hs h).bind fun _ _ hx => C63_vec_new (C63_tuple hs) hd hx

/-- **C63**: `sparsehistogram!(x, y, ...; V)`, two and more axes -/
theorem C63_sparsehistogram {t₀ t₁ : @AxTy (debugBuild b hb)} {ts : List (@AxTy (debugBuild b hb))} {t₀' t₁' : @AxTy (releaseBuild b hb)} {ts' : List (@AxTy (releaseBuild b hb))}
    {s : TwinAxes b hb (t₀ :: t₁ :: ts) (t₀' :: t₁' :: ts')} (hs : s.Agree) {V : Type} {a a'} (h : s.tup a a') :
    Builds s.tuple.hash (@sparsehistogram (debugBuild b hb) t₀ t₁ ts V a) (@sparsehistogram (releaseBuild b hb) t₀' t₁' ts' V a') :=
  (C63_from_tuple hs h).bind fun _ _ hx => Builds.pure ⟨hx, rfl⟩

end
end NdHist
