import Verif.Props.ProfileHist
import Verif.Model.Parallel
import Verif.Model.Reduce
/-!
# C63: debug and release builds compute the same (iterators, parallel iteration, text)
-/
namespace NdHist

/-! ## Iterators -/
section
variable {σ τ α β γ δ : Type} {S : α → β → Prop} {P : γ → δ → Prop}

/-- the ways in which `next()` can go in the two builds -/
theorem LIter.NextBuilds.cases {it : LIter σ α} {it' : LIter σ β} {s : σ} (h : it.NextBuilds S it' s) :
    (∃ s₁, it.next s = (.error .overflow, s₁)) ∨ (∃ p s₁, it.next s = (.error p, s₁) ∧ it'.next s = (.error p, s₁)) ∨
      (∃ s₁, it.next s = (.ok none, s₁) ∧ it'.next s = (.ok none, s₁)) ∨
      ∃ x y s₁, it.next s = (.ok (some x), s₁) ∧ it'.next s = (.ok (some y), s₁) ∧ S x y := by
  rcases h with h | ⟨h, hst⟩
  · exact Or.inl ⟨_, Prod.ext h rfl⟩
  · rcases hn : (it.next s).1 with p | _ | x
    · rw [hn] at h
      rcases h with rfl | h
      · exact Or.inl ⟨_, Prod.ext hn rfl⟩
      · exact Or.inr (Or.inl ⟨p, _, Prod.ext hn rfl, Prod.ext h hst.symm⟩)
    · rw [hn] at h
      obtain ⟨_ | y, h, h'⟩ := h
      · exact Or.inr (Or.inr (Or.inl ⟨_, Prod.ext hn rfl, Prod.ext h hst.symm⟩))
      · exact h'.elim
    · rw [hn] at h
      obtain ⟨_ | y, h, h'⟩ := h
      · exact h'.elim
      · exact Or.inr (Or.inr (Or.inr ⟨x, y, _, Prod.ext hn rfl, Prod.ext h hst.symm, h'⟩))

theorem LIter.Same.rfl {it : LIter σ α} : it.Same Eq it :=
  ⟨fun s => Or.inr ⟨by
    rcases (it.next s).1 with p | _ | x
    · exact Or.inr (Eq.refl _)
    · exact ⟨_, Eq.refl _, trivial⟩
    · exact ⟨_, Eq.refl _, Eq.refl _⟩, Eq.refl _⟩, Eq.refl _⟩

theorem LIter.Same.map {it : LIter σ α} {it' : LIter σ β} (h : it.Same S it') {f : α → Res γ} {g : β → Res δ} (hfg : ∀ x y, S x y → Builds P (f x) (g y)) :
    (it.map f).Same P (it'.map g) := by
  refine ⟨fun s => ?_, h.2⟩
  unfold LIter.NextBuilds
  simp only [LIter.map]
  rcases (h.1 s).cases with ⟨s₁, h⟩ | ⟨p, s₁, h, h'⟩ | ⟨s₁, h, h'⟩ | ⟨x, y, s₁, h, h', hxy⟩
  · rw [h]; exact Or.inl (Eq.refl _)
  · rw [h, h']; exact Or.inr ⟨Builds.error, Eq.refl _⟩
  · rw [h, h']; exact Or.inr ⟨Builds.ok trivial, Eq.refl _⟩
  · rw [h, h']; exact Or.inr ⟨(hfg x y hxy).bind fun a b hab => Builds.ok hab, Eq.refl _⟩

theorem LIter.Same.zip {it : LIter σ α} {it' : LIter σ β} {jt : LIter τ γ} {jt' : LIter τ δ} (h : it.Same S it') (k : jt.Same P jt') :
    (it.zip jt).Same (fun x y => S x.1 y.1 ∧ P x.2 y.2) (it'.zip jt') := by
  refine ⟨fun s => ?_, by simp only [LIter.zip, h.2, k.2]⟩
  unfold LIter.NextBuilds
  simp only [LIter.zip]
  rcases (h.1 s.1).cases with ⟨s₁, h⟩ | ⟨p, s₁, h, h'⟩ | ⟨s₁, h, h'⟩ | ⟨x, y, s₁, h, h', hxy⟩
  · rw [h]; exact Or.inl (Eq.refl _)
  · rw [h, h']; exact Or.inr ⟨Builds.error, Eq.refl _⟩
  · rw [h, h']; exact Or.inr ⟨Builds.ok trivial, Eq.refl _⟩
  · rw [h, h']
    dsimp only
    rcases (k.1 s.2).cases with ⟨s₂, k⟩ | ⟨p, s₂, k, k'⟩ | ⟨s₂, k, k'⟩ | ⟨x', y', s₂, k, k', hxy'⟩
    · rw [k]; exact Or.inl (Eq.refl _)
    · rw [k, k']; exact Or.inr ⟨Builds.error, Eq.refl _⟩
    · rw [k, k']; exact Or.inr ⟨Builds.ok trivial, Eq.refl _⟩
    · rw [k, k']; exact Or.inr ⟨Builds.ok ⟨hxy, hxy'⟩, Eq.refl _⟩

/-- **C63**: a `for` loop over the same iterator with the same body, wherever it ends -/
theorem C63_for_loop {it : LIter σ α} {it' : LIter σ β} (h : it.Same S it') {body : α → γ → γ × Flow} {body' : β → δ → δ × Flow}
    (hb : ∀ x y, S x y → ∀ t t', P t t' → BodyBuilds P (body x t) (body' y t')) (fuel : Nat) (s : σ) {t t'} (ht : P t t') :
    BuildsUpd P (it.forLoop body fuel s t) (it'.forLoop body' fuel s t') := by
  induction fuel generalizing s t t' with
  | zero => exact Or.inr ⟨ht, rfl⟩
  | succ n ih =>
    unfold LIter.forLoop
    rcases (h.1 s).cases with ⟨s₁, h⟩ | ⟨p, s₁, h, h'⟩ | ⟨s₁, h, h'⟩ | ⟨x, y, s₁, h, h', hxy⟩
    · rw [h]; exact Or.inl (Eq.refl _)
    · rw [h, h']; exact Or.inr ⟨ht, Eq.refl _⟩
    · rw [h, h']; exact Or.inr ⟨ht, Eq.refl _⟩
    · rw [h, h']
      dsimp only
      have hxy := hb x y hxy t t' ht
      revert hxy
      rcases body x t with ⟨u, fl⟩
      rcases body' y t' with ⟨u', fl'⟩
      rintro (hf | ⟨hp, hf⟩)
      · dsimp only at hf; subst hf; exact Or.inl (Eq.refl _)
      · dsimp only at hf hp
        subst hf
        cases fl' with
        | next => exact ih _ hp
        | stop => exact Or.inr ⟨hp, Eq.refl _⟩
        | panic p => exact Or.inr ⟨hp, Eq.refl _⟩

/-- `k` calls of `next()`, catching panics: up to the first overflow of the debug build, the outcomes are the same. -/
theorem C63_pull {it : LIter σ α} {it' : LIter σ β} (h : it.Same S it') (k : Nat) (s : σ) (hd : .error .overflow ∉ (it.pull k s).1) :
    List.Forall₂ (Builds (BothOption S)) (it.pull k s).1 (it'.pull k s).1 ∧ (it.pull k s).2 = (it'.pull k s).2 := by
  induction k generalizing s with
  | zero => exact ⟨.nil, rfl⟩
  | succ n ih =>
    simp only [LIter.pull, List.mem_cons, not_or] at hd ⊢
    rcases h.1 s with hs | ⟨hs, hst⟩
    · exact absurd hs.symm hd.1
    · rw [← hst]
      obtain ⟨h₁, h₂⟩ := ih _ hd.2
      exact ⟨.cons hs h₁, h₂⟩
end

section
variable {b : Nat} {hb : 16 ≤ b}
variable {A A' V : Type} {d : @Axis A (debugBuild b hb)} {r : @Axis A' (releaseBuild b hb)} {s : TwinAxis b hb A A' d r}

section
variable (hA : s.Agree)
include hA

/-- **C63**: where the iterators of an axis start -/
theorem C63_axis_start {a a'} (h : s.axis a a') : Builds Eq (@Axis.start (debugBuild b hb) A d a) (@Axis.start (releaseBuild b hb) A' r a') :=
  (hA.numBins h).eq_bind fun _ => Builds.pure rfl

/-- **C63**: `iter` of any axis, one `next()` at a time -/
theorem C63_axis_iter_next {a a'} (h : s.axis a a') :
    (@Axis.iterL (debugBuild b hb) A d a).Same (fun x y => x.1 = y.1 ∧ s.interval x.2 y.2) (@Axis.iterL (releaseBuild b hb) A' r a') := by
  refine LIter.Same.rfl.map ?_
  rintro i _ rfl
  exact (hA.bin i h).bind fun x y hxy => (builds_expect hxy).bind fun x y hxy => Builds.pure ⟨rfl, hxy⟩

/-- **C63**: `bins` of any axis, one `next()` at a time -/
theorem C63_bins_next {a a'} (h : s.axis a a') :
    (@Axis.binsL (debugBuild b hb) A d a).Same s.interval (@Axis.binsL (releaseBuild b hb) A' r a') := by
  refine LIter.Same.rfl.map ?_
  rintro i _ rfl
  exact (hA.bin i h).bind fun x y hxy => builds_expect hxy

/-- **C63**: `iter` of dense histograms, one `next()` at a time -/
theorem C63_vec_iter_next {h : VecHistogram A V} {h' : VecHistogram A' V} (hh : s.vec h h') :
    (@VecHistogram.iterL (debugBuild b hb) A V d h).Same s.item (@VecHistogram.iterL (releaseBuild b hb) A' V r h') := by
  refine (C63_axis_iter_next hA hh.1).map ?_
  rintro ⟨i, x⟩ ⟨i', x'⟩ ⟨rfl, hx⟩
  exact Builds.eq_bind (Builds.of_eq (by simp only [VecHistogram.valueAtIndex, hh.2])) fun v => Builds.pure ⟨rfl, hx, rfl⟩

/-- **C63**: `iter_mut` of dense histograms, one `next()` at a time -/
theorem C63_vec_iter_mut_next {h : VecHistogram A V} {h' : VecHistogram A' V} (hh : s.vec h h') :
    (@VecHistogram.iterMutL (debugBuild b hb) A V d h).Same s.item (@VecHistogram.iterMutL (releaseBuild b hb) A' V r h') := by
  refine ((C63_axis_iter_next hA hh.1).zip LIter.Same.rfl).map ?_
  rintro ⟨⟨i, x⟩, v⟩ ⟨⟨i', x'⟩, v'⟩ ⟨⟨rfl, hx⟩, rfl⟩
  exact Builds.ok ⟨rfl, hx, rfl⟩

/-- **C63**: `iter` of sparse histograms, one `next()` at a time -/
theorem C63_hash_iter_next {h : HashHistogram A V} {h' : HashHistogram A' V} (hh : s.hash h h') :
    (@HashHistogram.iterL (debugBuild b hb) A V d h).Same s.item (@HashHistogram.iterL (releaseBuild b hb) A' V r h') := by
  refine LIter.Same.rfl.map ?_
  rintro ⟨i, v⟩ _ rfl
  exact (hA.bin i hh.1).bind fun x y hxy => (builds_expect hxy).bind fun x y hxy => Builds.pure ⟨rfl, hxy, rfl⟩

/-- **C63**: `iter_mut` of sparse histograms, one `next()` at a time -/
theorem C63_hash_iter_mut_next {h : HashHistogram A V} {h' : HashHistogram A' V} (hh : s.hash h h') :
    (@HashHistogram.iterMutL (debugBuild b hb) A V d h).Same s.item (@HashHistogram.iterMutL (releaseBuild b hb) A' V r h') := by
  refine LIter.Same.rfl.map ?_
  rintro i _ rfl
  exact (hA.bin i hh.1).bind fun x y hxy => (builds_expect hxy).bind fun x y hxy => Builds.pure ⟨rfl, hxy, rfl⟩
end

theorem builds_setSlot {f g : V → V × Flow} (hf : ∀ v, BodyBuilds Eq (f v) (g v)) (i : Nat) {h : VecHistogram A V} {h' : VecHistogram A' V} (hh : s.vec h h') :
    BodyBuilds s.vec (VecHistogram.setSlot f i h) (VecHistogram.setSlot g i h') := by
  unfold VecHistogram.setSlot
  rw [← hh.2]
  cases h.values[i]? with
  | none => exact Or.inr ⟨hh, rfl⟩
  | some v =>
    rcases hf v with hv | ⟨hv, hp⟩
    · exact Or.inl hv
    · exact Or.inr ⟨⟨hh.1, by dsimp only; rw [hv]⟩, hp⟩

theorem builds_setKey {f g : V → V × Flow} (hf : ∀ v, BodyBuilds Eq (f v) (g v)) (i : Nat) {h : HashHistogram A V} {h' : HashHistogram A' V} (hh : s.hash h h') :
    BodyBuilds s.hash (HashHistogram.setKey f i h) (HashHistogram.setKey g i h') := by
  unfold HashHistogram.setKey
  rw [← hh.2]
  cases h.values.get i with
  | none => exact Or.inr ⟨hh, rfl⟩
  | some v =>
    rcases hf v with hv | ⟨hv, hp⟩
    · exact Or.inl hv
    · exact Or.inr ⟨⟨hh.1, by dsimp only; rw [hv]⟩, hp⟩

/-- **C63**: a `for` loop over `values_mut` of a dense histogram that may break, with a body that differs at most by overflow -/
theorem C63_vec_loop_values_mut {f g : V → V × Flow} (hf : ∀ v, BodyBuilds Eq (f v) (g v)) {h : VecHistogram A V} {h' : VecHistogram A' V} (hh : s.vec h h') (fuel : Nat) :
    BuildsUpd s.vec (h.loopValuesMut fuel f) (h'.loopValuesMut fuel g) := by
  unfold VecHistogram.loopValuesMut
  rw [← hh.2]
  refine C63_for_loop LIter.Same.rfl ?_ fuel _ hh
  rintro i _ rfl t t' ht
  exact builds_setSlot hf i ht

/-- **C63**: a `for` loop over `values_mut` of a sparse histogram that may break, with a body that differs at most by overflow -/
theorem C63_hash_loop_values_mut {f g : V → V × Flow} (hf : ∀ v, BodyBuilds Eq (f v) (g v)) {h : HashHistogram A V} {h' : HashHistogram A' V} (hh : s.hash h h')
    (o : h.values.Order) (o' : h'.values.Order) (ho : o.list = o'.list) (fuel : Nat) :
    BuildsUpd s.hash (h.loopValuesMut o fuel f) (h'.loopValuesMut o' fuel g) := by
  unfold HashHistogram.loopValuesMut
  rw [← ho]
  refine C63_for_loop LIter.Same.rfl ?_ fuel _ hh
  rintro i _ rfl t t' ht
  exact builds_setKey hf i ht

/-- **C63**: a `for` loop over `iter_mut` of a dense histogram that may break, with a body that differs at most by overflow -/
theorem C63_vec_loop_mut (hA : s.Agree) {f : Nat → d.Interval → V → V × Flow} {g : Nat → r.Interval → V → V × Flow}
    (hf : ∀ i x y, s.interval x y → ∀ v, BodyBuilds Eq (f i x v) (g i y v)) {h : VecHistogram A V} {h' : VecHistogram A' V} (hh : s.vec h h') (fuel : Nat) :
    BuildsUpd s.vec (@VecHistogram.loopMut (debugBuild b hb) A V d h fuel f) (@VecHistogram.loopMut (releaseBuild b hb) A' V r h' fuel g) := by
  have hs : Builds Eq (@VecHistogram.startMut (debugBuild b hb) A V d h) (@VecHistogram.startMut (releaseBuild b hb) A' V r h') :=
    (C63_axis_start hA hh.1).eq_bind fun _ => Builds.pure (by rw [hh.2])
  unfold VecHistogram.loopMut
  revert hs
  cases @VecHistogram.startMut (debugBuild b hb) A V d h with
  | error p =>
    rintro (rfl | hs)
    · exact Or.inl rfl
    · rw [hs]; exact Or.inr ⟨hh, rfl⟩
  | ok x =>
    rintro ⟨_, hy, rfl⟩
    rw [hy]
    refine C63_for_loop (C63_vec_iter_mut_next hA hh) ?_ fuel _ hh
    rintro ⟨i, x, v⟩ ⟨i', x', v'⟩ ⟨hi, hx, hv⟩ t t' ht
    dsimp only at hi hx hv
    subst hi; subst hv
    exact builds_setSlot (fun v => hf _ _ _ hx v) _ ht

/-- **C63**: a `for` loop over `iter_mut` of a sparse histogram that may break, with a body that differs at most by overflow -/
theorem C63_hash_loop_mut (hA : s.Agree) {f : Nat → d.Interval → V → V × Flow} {g : Nat → r.Interval → V → V × Flow}
    (hf : ∀ i x y, s.interval x y → ∀ v, BodyBuilds Eq (f i x v) (g i y v)) {h : HashHistogram A V} {h' : HashHistogram A' V} (hh : s.hash h h')
    (o : h.values.Order) (o' : h'.values.Order) (ho : o.list = o'.list) (fuel : Nat) :
    BuildsUpd s.hash (@HashHistogram.loopMut (debugBuild b hb) A V d h o fuel f) (@HashHistogram.loopMut (releaseBuild b hb) A' V r h' o' fuel g) := by
  unfold HashHistogram.loopMut
  rw [← ho]
  refine C63_for_loop (C63_hash_iter_mut_next hA hh) ?_ fuel _ hh
  rintro ⟨i, x, v⟩ ⟨i', x', v'⟩ ⟨hi, hx, hv⟩ t t' ht
  dsimp only at hi hx hv
  subst hi; subst hv
  exact builds_setKey (fun v => hf _ _ _ hx v) _ ht

/-! ## Parallel iteration -/

/-- **C63**: `par_iter` of dense histograms -/
theorem C63_vec_par_iter (hA : s.Agree) {h : VecHistogram A V} {h' : VecHistogram A' V} (hh : s.vec h h') :
    List.Forall₂ (Builds s.item) (@VecHistogram.parIter A V (debugBuild b hb) d h) (@VecHistogram.parIter A' V (releaseBuild b hb) r h') := by
  unfold VecHistogram.parIter
  rw [← hh.2, List.forall₂_iff_get]
  refine ⟨by simp, fun i h₁ h₂ => ?_⟩
  simp only [List.get_eq_getElem, List.getElem_mapIdx]
  exact (hA.bin i hh.1).bind fun x y hxy => (builds_expect hxy).bind fun x y hxy => Builds.pure ⟨rfl, hxy, rfl⟩

/-- **C63**: `par_iter` of sparse histograms -/
theorem C63_hash_par_iter (hA : s.Agree) {h : HashHistogram A V} {h' : HashHistogram A' V} (hh : s.hash h h')
    (o : h.values.Order) (o' : h'.values.Order) (ho : o.list = o'.list) :
    List.Forall₂ (Builds s.item) (@HashHistogram.parIter A V (debugBuild b hb) d h o) (@HashHistogram.parIter A' V (releaseBuild b hb) r h' o') := by
  unfold HashHistogram.parIter
  rw [← ho, List.forall₂_map_left_iff, List.forall₂_map_right_iff]
  refine (forall₂_eq o.list).imp ?_
  rintro ⟨i, v⟩ _ rfl
  exact (hA.bin i hh.1).bind fun x y hxy => (builds_expect hxy).bind fun x y hxy => Builds.pure ⟨rfl, hxy, rfl⟩

/-- the same item in flight in the two builds -/
def TaskBuilds (t t' : Task V) : Prop :=
  (t.panic = some .overflow ∧ t.todo = []) ∨
    (t.place = t'.place ∧ t.panic = t'.panic ∧ (List.Forall₂ UpdBuilds t.todo t'.todo ∨ t.todo = [fun v => (v, some .overflow)]))

theorem TaskBuilds.step {t t' : Task V} (h : TaskBuilds t t') : TaskBuilds t.step t'.step := by
  rcases h with ⟨hp, ht⟩ | ⟨hv, hp, ht⟩
  · obtain ⟨v, todo, p⟩ := t
    dsimp only at ht hp; subst ht
    exact Or.inl ⟨hp, rfl⟩
  · obtain ⟨v, todo, p⟩ := t
    obtain ⟨v', todo', p'⟩ := t'
    dsimp only at hv hp ht
    subst hv; subst hp
    rcases ht with ht | rfl
    · cases ht with
      | nil => exact Or.inr ⟨rfl, rfl, Or.inl .nil⟩
      | @cons f g fs gs hfg ht =>
        have hfg := hfg v
        unfold Task.step
        dsimp only
        revert hfg
        rcases f v with ⟨w, _ | q⟩ <;> rcases g v with ⟨w', q'⟩
        · rintro (hfg | ⟨hw, hq⟩)
          · cases hfg
          · dsimp only at hw hq; subst hw; subst hq
            exact Or.inr ⟨rfl, rfl, Or.inl ht⟩
        · rintro (hfg | ⟨hw, hq⟩)
          · cases hfg; exact Or.inl ⟨rfl, rfl⟩
          · dsimp only at hw hq; subst hw; subst hq
            exact Or.inr ⟨rfl, rfl, Or.inl .nil⟩
    · exact Or.inl ⟨rfl, rfl⟩

theorem forall₂_modify {α β : Type} {S : α → β → Prop} {f : α → α} {g : β → β} (hfg : ∀ x y, S x y → S (f x) (g y)) {l : List α} {l' : List β}
    (h : List.Forall₂ S l l') (i : Nat) : List.Forall₂ S (l.modify i f) (l'.modify i g) := by
  induction h generalizing i with
  | nil => simp
  | cons hx h ih =>
    cases i with
    | zero => exact .cons (hfg _ _ hx) h
    | succ i => exact .cons hx (ih i)

theorem builds_runSchedule (sched : List Nat) {ts ts' : List (Task V)} (h : List.Forall₂ TaskBuilds ts ts') :
    List.Forall₂ TaskBuilds (runSchedule sched ts) (runSchedule sched ts') := by
  induction sched generalizing ts ts' with
  | nil => exact h
  | cons i sched ih => exact ih (forall₂_modify (fun _ _ h => h.step) h i)

theorem builds_tasks_out {ts ts' : List (Task V)} (h : List.Forall₂ TaskBuilds ts ts') :
    List.Forall₂ (BuildsUpd Eq) ((ts.map (·.place)).zip (ts.map (·.panic))) ((ts'.map (·.place)).zip (ts'.map (·.panic))) := by
  induction h with
  | nil => exact .nil
  | cons h _ ih =>
    refine .cons ?_ ih
    rcases h with ⟨hp, -⟩ | ⟨hv, hp, -⟩
    · exact Or.inl hp
    · exact Or.inr ⟨hv, hp.symm⟩

theorem builds_itemWork (hA : s.Agree) {f : Nat → d.Interval → List (Upd V)} {g : Nat → r.Interval → List (Upd V)}
    (hf : ∀ i x y, s.interval x y → List.Forall₂ UpdBuilds (f i x) (g i y)) {a a'} (h : s.axis a a') (i : Nat) :
    List.Forall₂ UpdBuilds (@VecHistogram.itemWork A V (debugBuild b hb) d a f i) (@VecHistogram.itemWork A' V (releaseBuild b hb) r a' g i) ∨
      @VecHistogram.itemWork A V (debugBuild b hb) d a f i = [fun v => (v, some .overflow)] := by
  have hm := hA.bin i h
  unfold VecHistogram.itemWork
  revert hm
  cases @Axis.bin A (debugBuild b hb) d a i with
  | error p =>
    rintro (rfl | hm)
    · exact Or.inr rfl
    · rw [hm]; exact Or.inl (.cons UpdBuilds.rfl .nil)
  | ok x =>
    rintro ⟨y, hy, hxy⟩
    rw [hy]
    cases x <;> cases y
    · exact Or.inl (.cons UpdBuilds.rfl .nil)
    · exact hxy.elim
    · exact hxy.elim
    · exact Or.inl (hf _ _ _ hxy)

/-- **C63**: `par_iter_mut` of dense histograms, with a closure that differs at most by overflow, under any schedule, complete or not: bin by bin the same, except where
the debug build panics with overflow -/
theorem C63_vec_par_iter_mut (hA : s.Agree) {f : Nat → d.Interval → List (Upd V)} {g : Nat → r.Interval → List (Upd V)}
    (hf : ∀ i x y, s.interval x y → List.Forall₂ UpdBuilds (f i x) (g i y)) {h : VecHistogram A V} {h' : VecHistogram A' V} (hh : s.vec h h') (sched : List Nat)
    (o : VecHistogram A V × List (Option Panic)) (o' : VecHistogram A' V × List (Option Panic))
    (ho : o = @VecHistogram.parIterMut A V (debugBuild b hb) d h f sched) (ho' : o' = @VecHistogram.parIterMut A' V (releaseBuild b hb) r h' g sched) :
    s.axis o.1.axes o'.1.axes ∧ List.Forall₂ (BuildsUpd Eq) (o.1.values.zip o.2) (o'.1.values.zip o'.2) := by
  subst ho ho'
  refine ⟨hh.1, builds_tasks_out (builds_runSchedule sched ?_)⟩
  unfold VecHistogram.parIterMutTasks
  rw [← hh.2, List.forall₂_iff_get]
  refine ⟨by simp, fun i h₁ h₂ => ?_⟩
  simp only [List.get_eq_getElem, List.getElem_mapIdx]
  exact Or.inr ⟨rfl, rfl, builds_itemWork hA hf hh.1 i⟩

/-- **C63**: `par_values_mut` of dense histograms -/
theorem C63_vec_par_values_mut {f g : Nat → List (Upd V)} (hf : ∀ i, List.Forall₂ UpdBuilds (f i) (g i)) {h : VecHistogram A V} {h' : VecHistogram A' V}
    (hh : s.vec h h') (sched : List Nat) (o : VecHistogram A V × List (Option Panic)) (o' : VecHistogram A' V × List (Option Panic))
    (ho : o = h.parValuesMut f sched) (ho' : o' = h'.parValuesMut g sched) :
    s.axis o.1.axes o'.1.axes ∧ List.Forall₂ (BuildsUpd Eq) (o.1.values.zip o.2) (o'.1.values.zip o'.2) := by
  subst ho ho'
  refine ⟨hh.1, builds_tasks_out (builds_runSchedule sched ?_)⟩
  unfold VecHistogram.parValuesMutTasks
  rw [← hh.2, List.forall₂_iff_get]
  refine ⟨by simp, fun i h₁ h₂ => ?_⟩
  simp only [List.get_eq_getElem, List.getElem_mapIdx]
  exact Or.inr ⟨rfl, rfl, Or.inl (hf i)⟩

theorem builds_entries_out (ks : List Nat) {ts ts' : List (Task V)} (h : List.Forall₂ TaskBuilds ts ts') :
    EntriesBuild (⟨ks.zip (ts.map (·.place))⟩, ts.map (·.panic)) (⟨ks.zip (ts'.map (·.place))⟩, ts'.map (·.panic)) := by
  unfold EntriesBuild
  dsimp only
  induction h generalizing ks with
  | nil => simp
  | cons h _ ih =>
    cases ks with
    | nil => simp
    | cons k ks =>
      refine .cons ⟨rfl, ?_⟩ (ih ks)
      rcases h with ⟨hp, -⟩ | ⟨hv, hp, -⟩
      · exact Or.inl hp
      · exact Or.inr ⟨hv, hp.symm⟩

/-- **C63**: `par_iter_mut` of sparse histograms -/
theorem C63_hash_par_iter_mut (hA : s.Agree) {f : Nat → d.Interval → List (Upd V)} {g : Nat → r.Interval → List (Upd V)}
    (hf : ∀ i x y, s.interval x y → List.Forall₂ UpdBuilds (f i x) (g i y)) {h : HashHistogram A V} {h' : HashHistogram A' V} (hh : s.hash h h') (sched : List Nat)
    (o : HashHistogram A V × List (Option Panic)) (o' : HashHistogram A' V × List (Option Panic))
    (ho : o = @HashHistogram.parIterMut A V (debugBuild b hb) d h f sched) (ho' : o' = @HashHistogram.parIterMut A' V (releaseBuild b hb) r h' g sched) :
    s.axis o.1.axes o'.1.axes ∧ EntriesBuild (o.1.values, o.2) (o'.1.values, o'.2) := by
  subst ho ho'
  refine ⟨hh.1, ?_⟩
  unfold HashHistogram.parIterMut HashHistogram.parIterMutTasks
  rw [← hh.2]
  refine builds_entries_out _ (builds_runSchedule sched ?_)
  rw [List.forall₂_map_left_iff, List.forall₂_map_right_iff]
  refine (forall₂_eq h.values.entries).imp ?_
  rintro ⟨i, v⟩ _ rfl
  exact Or.inr ⟨rfl, rfl, builds_itemWork hA hf hh.1 i⟩

/-- **C63**: `par_values_mut` of sparse histograms -/
theorem C63_hash_par_values_mut {f g : List (Upd V)} (hf : List.Forall₂ UpdBuilds f g) {h : HashHistogram A V} {h' : HashHistogram A' V}
    (hh : s.hash h h') (sched : List Nat) (o : HashHistogram A V × List (Option Panic)) (o' : HashHistogram A' V × List (Option Panic))
    (ho : o = h.parValuesMut f sched) (ho' : o' = h'.parValuesMut g sched) :
    s.axis o.1.axes o'.1.axes ∧ EntriesBuild (o.1.values, o.2) (o'.1.values, o'.2) := by
  subst ho ho'
  refine ⟨hh.1, ?_⟩
  unfold HashHistogram.parValuesMut
  rw [← hh.2]
  refine builds_entries_out _ (builds_runSchedule sched ?_)
  rw [List.forall₂_map_left_iff, List.forall₂_map_right_iff]
  refine (forall₂_eq h.values.entries).imp ?_
  rintro ⟨i, v⟩ _ rfl
  exact Or.inr ⟨rfl, rfl, Or.inl hf⟩

/-- **C63**: a parallel reduction divided in the same way -/
theorem C63_reduce {α β : Type} {f f' : α → Res β} {op op' : β → β → Res β} (hf : ∀ x, Builds Eq (f x) (f' x)) (ho : ∀ x y, Builds Eq (op x y) (op' x y)) (z : β)
    (t : Split α) : Builds Eq (t.reduce f op z) (t.reduce f' op' z) := by
  induction t with
  | part l =>
    unfold Split.reduce
    induction l generalizing z with
    | nil => exact Builds.pure rfl
    | cons x l ih =>
      rw [List.foldlM_cons, List.foldlM_cons]
      exact ((hf x).eq_bind fun y => ho z y).eq_bind fun w => ih w
  | join l r hl hr => exact hl.eq_bind fun _ => hr.eq_bind fun _ => ho _ _

/-! ## Text -/

theorem builds_displaySum (into : V → F64) {h : VecHistogram A V} {h' : VecHistogram A' V} (hh : s.vec h h') : h.displaySum into = h'.displaySum into := by
  unfold VecHistogram.displaySum VecHistogram.valuesIter
  rw [hh.2]

/-- **C63**: the text of a dense histogram, whichever of its writes fail -/
theorem C63_vec_display (hA : s.Agree) {p : Disp d.Interval} {p' : Disp r.Interval} (ht : s.Texts p p') [Disp F64] (into : V → F64) (ok : Nat → Bool) (precision : Option Nat)
    {h : VecHistogram A V} {h' : VecHistogram A' V} (hh : s.vec h h') :
    Builds Eq (@VecHistogram.display A V (debugBuild b hb) d p _ into ok precision h) (@VecHistogram.display A' V (releaseBuild b hb) r p' _ into ok precision h') := by
  unfold VecHistogram.display
  refine Builds.bind (S := Eq) ?_ ?_
  · refine (hA.numBins hh.1).eq_bind fun n => Builds.pure ?_
    rw [hA.numDim hh.1, builds_displaySum into hh]
  rintro hd _ rfl
  dsimp only
  split
  · exact Builds.pure rfl
  refine Builds.bind (S := List.Forall₂ fun x y => s.interval x.1 y.1 ∧ x.2 = y.2) ?_ fun l l' hl => ?_
  · refine (C63_indices hA hh.1).eq_bind fun is => Builds.mapM (forall₂_eq _) ?_
    rintro i _ rfl
    refine (hA.bin i hh.1).bind fun x y hxy => (builds_expect hxy).bind fun x y hxy => ?_
    exact Builds.eq_bind (Builds.of_eq (by simp only [VecHistogram.valueAtIndex, hh.2])) fun v => Builds.pure ⟨hxy, rfl⟩
  have hs : VecHistogram.displayScale l = VecHistogram.displayScale l' := by
    unfold VecHistogram.displayScale maxBy
    cases hl with
    | nil => rfl
    | @cons x x' xs xs' hx hl =>
      dsimp only
      obtain ⟨-, hx⟩ := hx
      revert x x'
      induction hl with
      | nil => intro x x' hx; exact hx
      | @cons y y' ys ys' hy _ ih =>
        intro x x' hx
        rw [List.foldl_cons, List.foldl_cons, hx, hy.2]
        split
        · exact ih hx
        · exact ih hy.2
  refine Builds.bind (S := List.Forall₂ Eq) (Builds.mapM hl ?_) ?_
  · rintro ⟨x, v⟩ ⟨x', v'⟩ ⟨hx, hv⟩
    dsimp only at hv; subst hv
    unfold VecHistogram.displayRow
    dsimp only
    rw [hs, ht _ _ _ hx]
    exact Builds.eq_bind (Builds.of_eq rfl) fun _ => Builds.pure rfl
  · intro rows rows' hr
    rw [forall₂_eq_iff hr]
    exact Builds.pure rfl

/-- **C63**: the text of a sparse histogram -/
theorem C63_hash_display (hA : s.Agree) [Disp F64] (into : V → F64) {a a'} (h : s.axis a a') (vals : List V) :
    Builds Eq (@HashHistogram.display A V (debugBuild b hb) d _ into a vals) (@HashHistogram.display A' V (releaseBuild b hb) r _ into a' vals) := by
  refine (hA.numBins h).eq_bind fun n => Builds.pure ?_
  rw [hA.numDim h]

/-- **C63**: the text of the uniform axes (that of `Uniform` does no arithmetic) -/
theorem C63_display_uniform {T : Type} [Disp T] {d : @RNum T (debugBuild b hb)} {r : @RNum T (releaseBuild b hb)} (a : UniformNoFlow T) (c : UniformCyclic T) :
    Builds Eq (@UniformNoFlow.display T (debugBuild b hb) _ d a) (@UniformNoFlow.display T (releaseBuild b hb) _ r a) ∧
      Builds Eq (@UniformCyclic.display T (debugBuild b hb) _ d c) (@UniformCyclic.display T (releaseBuild b hb) _ r c) :=
  ⟨Builds.eq_bind (Builds.eq_bind (builds_uadd _ _) fun _ => builds_usub _ _) fun _ => Builds.pure rfl,
    Builds.eq_bind (Builds.eq_bind (builds_uadd _ _) fun _ => builds_usub _ _) fun _ => Builds.pure rfl⟩

/-- **C63**: the text of the variable axes -/
theorem C63_display_variable {T : Type} [Disp T] [POrd T] (a : Variable T) (n : VariableNoFlow T) (c : VariableCyclic T) :
    Builds Eq (@Variable.display T (debugBuild b hb) _ _ a) (@Variable.display T (releaseBuild b hb) _ _ a) ∧
      Builds Eq (@VariableNoFlow.display T (debugBuild b hb) _ _ n) (@VariableNoFlow.display T (releaseBuild b hb) _ _ n) ∧
      Builds Eq (@VariableCyclic.display T (debugBuild b hb) _ _ c) (@VariableCyclic.display T (releaseBuild b hb) _ _ c) :=
  ⟨Builds.eq_bind (builds_usub _ _) fun _ => Builds.of_eq rfl,
    Builds.eq_bind (Builds.eq_bind (builds_uadd _ _) fun _ => builds_usub _ _) fun _ => Builds.of_eq rfl,
    Builds.eq_bind (Builds.eq_bind (builds_uadd _ _) fun _ => builds_usub _ _) fun _ => Builds.of_eq rfl⟩

/-- **C63**: the text of the category axes -/
theorem C63_display_category {T : Type} [DecidableEq T] [Disp T] (a : Category T) (n : CategoryNoFlow T) :
    Builds Eq (@Category.display T _ (debugBuild b hb) _ a) (@Category.display T _ (releaseBuild b hb) _ a) ∧
      Builds Eq (@CategoryNoFlow.display T _ (debugBuild b hb) _ n) (@CategoryNoFlow.display T _ (releaseBuild b hb) _ n) := by
  have h (a : Category T) : Builds Eq (@Category.display T _ (debugBuild b hb) _ a) (@Category.display T _ (releaseBuild b hb) _ a) := by
    unfold Category.display
    exact Builds.eq_bind (Builds.eq_bind (builds_uadd _ _) fun _ => Builds.pure rfl) fun is => Builds.of_eq rfl
  exact ⟨h a, h n.axis⟩
end
end NdHist
