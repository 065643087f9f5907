import Verif.Props.ProgNum
/-!
# Concrete cases of the theorems in `Props/Prog.lean` and `Props/ProgNum.lean`
-/
namespace NdHist.Examples
open NdHist
section
attribute [local instance] dbg64 numPEq

/-- maps that iterate in the order of insertion -/
def exOrders : HistProg.MapOrders (CategoryNoFlow String) (MInt .i32) where
  map m := ⟨m.entries, List.Perm.refl _⟩
  keys l r := ⟨(l.values.keys ++ r.values.keys).dedup, List.nodup_dedup _, by intro k; simp⟩

/-- `x.fill("a"); y.fill_with("b", 3); x += &y; match x.value("b") { 3 => { z = &x - &y; z.value_at_index(0) } _ => 7 }` -/
def exProg : HistProg (CategoryNoFlow String) (MInt .i32) (MInt .i32) :=
  .call 0 (.fill "a") fun _ =>
  .call 1 (.fillWith "b" (.lit 3 : MInt .i32)) fun _ =>
  .assign .add 0 1 <|
  .value 0 "b" fun v =>
    if v = .ok (.lit 3) then .borrow .sub 0 1 2 fun _ => .valueAt 2 0 fun v => .done v
    else .done (.lit 7)

theorem exProg_keeps : exProg.KeepsEmpty (fun _ => True) := by
  refine ⟨fun _ _ => trivial, fun _ => ⟨fun _ _ => trivial, fun _ => ⟨fun v _ => ?_, fun _ _ _ _ _ _ => trivial, fun v => ?_⟩⟩⟩
  · exact (C71_int .add).1 (.inl rfl) v
  · beta_reduce
    split
    · exact ⟨(C71_int .sub).2 (by decide), fun _ _ _ _ _ _ => trivial, fun _ _ => trivial⟩
    · trivial

/-- the histograms the program starts with -/
def exStart : Nat → VecHistogram (CategoryNoFlow String) (MInt .i32) := fun _ => ⟨exAxis, [.lit 0, .lit 0]⟩

theorem exProg_dense : (exProg.runDense exStart).map (·.2) = .ok (.lit 1) := by decide +kernel

example : ∃ fin', exProg.runSparse (fun _ => exOrders) (fun _ => HashHistogram.new exAxis) = .ok (fin', MInt.lit 1) := by
  have h := (C71_from_new (P := fun a => a = exAxis) (Q := fun _ => True) (by rintro _ _ rfl rfl _; rfl) exProg trivial exProg_keeps
    (fun _ => exOrders) (fun _ => exAxis) (fun _ => rfl) (fun _ => ⟨2, exAxis_lawful⟩) exStart (fun _ => rfl)).1
  rcases hd : exProg.runDense exStart with p | ⟨fin, r⟩
  · have := exProg_dense; rw [hd] at this; cases this
  · have := exProg_dense; rw [hd] at this
    simp only [Except.map, Except.ok.injEq] at this
    subst this
    obtain ⟨fin', a, -⟩ := h fin _ hd
    exact ⟨fin', a⟩

example (env : Nat → VecHistogram (CategoryNoFlow String) (MInt .i32)) (env' : Nat → HashHistogram (CategoryNoFlow String) (MInt .i32))
    (h : ∀ x, Alike (fun a => a = exAxis) (fun _ => True) (env x) (env' x)) {p : Panic} (hp : exProg.runDense env = .error p) :
    ∃ p', exProg.runSparse (fun _ => exOrders) env' = .error p' :=
  (C71_program (by rintro _ _ rfl rfl _; rfl) exProg exProg_keeps (fun _ => exOrders) env env' h).2 p hp

/-- the histograms of `C71_counterexample_eq` are alike -/
example : Alike (fun a => a = exAxis) (fun _ => True) exEqD exEqS :=
  ⟨rfl, ⟨2, ⟨exAxis_lawful, rfl⟩, ⟨exAxis_lawful, by unfold HMap.NodupKeys; decide, by decide⟩⟩, C71_counterexample_eq.1, fun _ _ _ => trivial⟩

example : ROps.op .sub (f64 (-1)) RDefault.dflt = .ok (f64 (-1)) := (C71_float .sub).2.1 (.inr rfl) _ (by decide +kernel)

/-- 5 in bin 0 on the left only -/
example : ∃ m m', exL.opBorrow .mul exR exKeys = .ok (.ok m) ∧ exL.opOwned .mul exR ⟨[], List.Perm.refl _⟩ = .ok (.ok m') ∧
    m.valueAtIndex 0 ≠ m'.valueAtIndex 0 := by
  obtain ⟨okl, okr, -, -, -⟩ := C35_counterexample_mul
  obtain ⟨h1, h2, -, h4⟩ := C35_sparse_exact .mul okl okr (by decide) exKeys ⟨[], List.Perm.refl _⟩
  obtain ⟨m, hm⟩ := h1.2 (by
    intro i hi
    have : i = 0 := by
      by_contra hc
      rcases hi with hi | hi
      · exact hi (by simp [HashHistogram.valueAtIndex, exL, HMap.get, HMap.find]; omega)
      · exact hi rfl
    subst this
    exact ⟨.lit 0, by decide +kernel⟩)
  obtain ⟨m', hm'⟩ := h2.2 (by intro i hi; exact absurd rfl hi)
  exact ⟨m, m', hm, hm', ((h4 m m' hm hm').2 0).2 ⟨.lit 5, by decide, rfl, by decide +kernel⟩⟩
end
end NdHist.Examples
