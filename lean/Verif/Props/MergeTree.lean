import Verif.Props.MergeFill
import Verif.Props.Content
/-!
# C54: splitting the data, filling in parallel and merging (map-reduce)
-/
namespace NdHist
universe u

/-- A plan for filling in parts: a leaf is a share of the calls, filled into a new histogram of its own; a node adds the histograms of two sub-plans. Any number
of shares of any size, merged in any order and grouping. -/
inductive MergePlan (K : Type u) : Type u where
  | share (calls : List K)
  | merge (l r : MergePlan K)

/-- all the calls of a plan -/
def MergePlan.calls {K : Type u} : MergePlan K → List K
  | .share cs => cs
  | .merge l r => l.calls ++ r.calls

section
variable {A V M : Type} [Cfg] [Axis A] [PEq A] [ROps V] [RDefault V]

/-- Running a plan with dense histograms: `h` is the new, empty histogram. A panic during filling or adding, or incompatible axes, end it. -/
def MergePlan.run (h : VecHistogram A V) : MergePlan (Call V (Axis.Coordinate A)) → Res (Except BinaryOperationError (VecHistogram A V))
  | .share cs => match h.callAll cs with
    | (m, none) => .ok (.ok m)
    | (_, some p) => .error p
  | .merge l r =>
    match run h l, run h r with
    | .ok (.ok a), .ok (.ok b) => a.opBorrow .add b
    | .error p, _ => .error p
    | _, .error p => .error p
    | .ok (.error e), _ => .ok (.error e)
    | _, .ok (.error e) => .ok (.error e)

/-- `V` adds up: `μ` is the number a value stands for, and `+` adds these numbers unless it panics -/
structure Additive [AddCommMonoid M] (μ : V → M) : Prop where
  inj : ∀ x y, μ x = μ y → x = y
  dflt : μ RDefault.dflt = 0
  add : ∀ x y v, ROps.op .add x y = .ok v → μ v = μ x + μ y

/-- **C54.** Whatever the plan, if it ends without a panic, its result is the histogram that a single program filling all the data one after another, in any
order, gets (if that does not panic). -/
theorem C54_plan_dense [AddCommMonoid M] {μ : V → M} {weight : Call V (Axis.Coordinate A) → M} (hμ : Additive μ) {axes : A} {n : Nat}
    (hl : LawfulAxis axes n) {h : VecHistogram A V} (hnew : VecHistogram.new axes = .ok h)
    {plan : MergePlan (Call V (Axis.Coordinate A))} {calls : List (Call V (Axis.Coordinate A))} (hp : calls.Perm plan.calls)
    (hw : ∀ call ∈ calls, Adds μ call.on (weight call))
    {m h' : VecHistogram A V} (hrun : plan.run h = .ok (.ok m)) (hseq : h.callAll calls = (h', none)) : m = h' := by
  obtain ⟨h₀, b1, b2, b3, b4⟩ := C26_new (V := V) hl
  have he : h = h₀ := by rw [hnew] at b1; exact Except.ok.inj b1
  subst he
  have e : ∀ {calls h'}, h.callAll calls = (h', none) → h' = h.callAllCaught calls := by
    intro calls h' hr
    have := VecHistogram.callAll_ok (h := h) (calls := calls) (by rw [hr])
    rwa [hr] at this
  have key : ∀ (plan : MergePlan (Call V (Axis.Coordinate A))) (m : VecHistogram A V), (∀ call ∈ plan.calls, Adds μ call.on (weight call)) →
      plan.run h = .ok (.ok m) →
      m.Ok n ∧ m.axes = axes ∧ ∀ i, i < n → ∃ v, m.valueAtIndex i = some v ∧ μ v = ((callsIn axes i plan.calls).map weight).sum := by
    intro plan
    induction plan with
    | share cs =>
      intro m hw hrun
      simp only [MergePlan.run] at hrun
      split at hrun
      · rename_i m' hc
        cases hrun
        refine ⟨by rw [e hc]; exact b2.callAllCaught _, by rw [e hc, VecHistogram.callAllCaught_axes, b3], fun i hi => ?_⟩
        obtain ⟨v, h1, h2⟩ := VecHistogram.callAll_measure hw hc (j := i) (v := RDefault.dflt) (by rw [b4, if_pos hi])
        rw [hμ.dflt, zero_add, b3] at h2
        exact ⟨v, h1, h2⟩
      · cases hrun
    | merge l r ihl ihr =>
      intro m hw hrun
      simp only [MergePlan.run] at hrun
      split at hrun
      · rename_i a b ha hb
        obtain ⟨o1, a1, v1⟩ := ihl a (fun c hc => hw c (List.mem_append_left _ hc)) ha
        obtain ⟨o2, a2, v2⟩ := ihr b (fun c hc => hw c (List.mem_append_right _ hc)) hb
        have hax : PEq.peq a.axes b.axes = true := by
          cases h : PEq.peq a.axes b.axes
          · rw [(C34_dense .add a b).1.2 h] at hrun; cases hrun
          · rfl
        rcases C33_binwise_dense .add o1 o2 hax with ⟨m', m1, m2, m3, m4⟩ | ⟨p, i, x, y, hp, -⟩
        · rw [m1] at hrun
          cases hrun
          refine ⟨m2, by rw [m3, a1], fun i hi => ?_⟩
          obtain ⟨x, y, z, l1, l2, l3, l4⟩ := m4 i hi
          obtain ⟨x', x1, x2⟩ := v1 i hi
          obtain ⟨y', y1, y2⟩ := v2 i hi
          rw [l1] at x1; rw [l2] at y1; cases x1; cases y1
          refine ⟨z, l4, ?_⟩
          rw [hμ.add x y z l3, x2, y2, MergePlan.calls, callsIn, callsIn, callsIn, List.filter_append, List.map_append, List.sum_append]
        · rw [hrun] at hp; cases hp
      all_goals cases hrun
  obtain ⟨o, a, v⟩ := key plan m (fun c hc => hw c (hp.mem_iff.2 hc)) hrun
  have o' : h'.Ok n := by rw [e hseq]; exact b2.callAllCaught _
  apply VecHistogram.ext_get
  · rw [a, e hseq, VecHistogram.callAllCaught_axes, b3]
  intro i
  by_cases hi : i < n
  · obtain ⟨x, x1, x2⟩ := v i hi
    obtain ⟨y, y1, y2⟩ := VecHistogram.callAll_measure hw hseq (j := i) (v := RDefault.dflt) (by rw [b4, if_pos hi])
    rw [x1, y1, hμ.inj x y]
    rw [x2, y2, hμ.dflt, zero_add, b3, ((callsIn_perm hp i).map weight).sum_eq]
  · rw [(o.get_none).2 (by omega), (o'.get_none).2 (by omega)]
end

section
variable [cfg : Cfg] {τ : IntTy} {A : Type} [Axis A] [PEq A]

/-- integers add up as residues, in either build profile -/
theorem int_additive : Additive (fun x : MInt τ => residue x) where
  inj := residue_inj
  dflt := by show ((0 : Int) : ZMod (2 ^ τ.bits)) = 0; simp
  add x y v h := by
    have h' : MInt.arith (x.val + y.val) = .ok v := h
    show residue v = residue x + residue y
    rw [residue_arith h']
    simp [residue]

/-- C54 for integer histograms of any type, unit and weighted fills, in either build profile. -/
theorem C54_plan_int {axes : A} {n : Nat} (hl : LawfulAxis axes n) {h : VecHistogram A (MInt τ)} (hnew : VecHistogram.new axes = .ok h)
    {plan : MergePlan (Call (MInt τ) (Axis.Coordinate A))} {hist : List (Axis.Coordinate A × Option (MInt τ))}
    (hp : (numCalls hist).Perm plan.calls) {m h' : VecHistogram A (MInt τ)}
    (hrun : plan.run h = .ok (.ok m)) (hseq : h.callAll (numCalls hist) = (h', none)) : m = h' :=
  C54_plan_dense int_additive hl hnew hp
    (fun call hm => someWeight_adds (numCalls_adds residue int_addAssign_residue _ call hm)) hrun hseq

/-- C54, counting: when the plan's data are unit fills and their number fits the counter, the plan does not panic or fail, and its result counts, in each
bin, the coordinates which the interval of the bin contains. The axes must be equal to themselves (false only if they contain NaN). -/
theorem C54_count {axes : A} {n : Nat} {covers dom} (hf : FaithfulAxis axes n covers dom) (hrefl : PEq.peq axes axes = true) {h : VecHistogram A (MInt τ)}
    (hnew : VecHistogram.new axes = .ok h) (plan : MergePlan (Call (MInt τ) (Axis.Coordinate A))) (cs : List (Axis.Coordinate A))
    (hp : plan.calls = cs.map .fill) (hd : ∀ c ∈ cs, dom c) (hfit : (cs.length : ℤ) ≤ τ.max) :
    ∃ m items, plan.run h = .ok (.ok m) ∧ m.iter = .ok items ∧ items.length = n ∧
      ∀ i it, items[i]? = some it → it.index = i ∧ Axis.bin axes i = .ok (some it.bin) ∧
        ∀ [DecidablePred (covers it.bin)], it.value.val = ((cs.countP (covers it.bin) : ℕ) : ℤ) := by
  have key : ∀ (plan : MergePlan (Call (MInt τ) (Axis.Coordinate A))) (cs : List (Axis.Coordinate A)), plan.calls = cs.map .fill →
      (∀ c ∈ cs, dom c) → (cs.length : ℤ) ≤ τ.max → ∃ m, plan.run h = .ok (.ok m) ∧ h.callAll (cs.map .fill) = (m, none) := by
    intro plan
    induction plan with
    | share calls =>
      intro cs hp hd hfit
      obtain ⟨m, items, h1, -⟩ := C52_count_int hf hnew cs hd hfit
      have hp' : calls = cs.map .fill := hp
      refine ⟨m, ?_, h1⟩
      simp only [MergePlan.run, hp', h1]
    | merge l r ihl ihr =>
      intro cs hp hd hfit
      obtain ⟨c1, c2, rfl, e1, e2⟩ := List.map_eq_append_iff.1 hp.symm
      rw [List.length_append] at hfit
      push_cast at hfit
      obtain ⟨m1, r1, q1⟩ := ihl c1 e1.symm (fun c hc => hd c (List.mem_append_left _ hc)) (by omega)
      obtain ⟨m2, r2, q2⟩ := ihr c2 e2.symm (fun c hc => hd c (List.mem_append_right _ hc)) (by omega)
      obtain ⟨m, items, q3, -⟩ := C52_count_int hf hnew (c1 ++ c2) hd (by rw [List.length_append]; push_cast; omega)
      refine ⟨m, ?_, q3⟩
      simp only [MergePlan.run, r1, r2]
      have num : ∀ c : List (Axis.Coordinate A), (c.map .fill : List (Call (MInt τ) _)) = numCalls (c.map fun x => (x, none)) := by
        intro c; simp [numCalls]
      rw [num] at q1 q2 q3
      rw [List.map_append] at q3
      exact C33_merge_int_dense hf.lawful hrefl _ _ hnew q1 q2 q3
  obtain ⟨m, h1, h2⟩ := key plan cs hp hd hfit
  obtain ⟨m', items, g1, g2, g3, g4⟩ := C52_count_int hf hnew cs hd hfit
  rw [h2] at g1
  cases g1
  refine ⟨m, items, h1, g2, g3, fun i it hi => ?_⟩
  obtain ⟨k1, k2, k3⟩ := g4 i it hi
  refine ⟨k1, k2, ?_⟩
  intro hdec
  rw [k3]
  congr 2
  funext c
  exact decide_eq_decide.2 Iff.rfl
end

/-! ## Concrete cases -/

section
attribute [local instance] dbg64

/-- three shares, merged in a different grouping and order than the data came -/
def exPlan : MergePlan (Call (MInt .u8) String) := .merge (.share [.fill "b", .fill "x"]) (.merge (.share []) (.share [.fill "a", .fill "b"]))

example : ∃ h m : VecHistogram (CategoryNoFlow String) (MInt .u8), VecHistogram.new exAxis = .ok h ∧ MergePlan.run (A := CategoryNoFlow String) h exPlan = .ok (.ok m) ∧
    h.callAll ([.fill "a", .fill "b", .fill "b", .fill "x"] : List (Call (MInt .u8) String)) = (m, none) ∧ m.values = [MInt.lit 1, MInt.lit 2] := by
  exact ⟨_, ⟨exAxis, [MInt.lit 1, MInt.lit 2]⟩, rfl, rfl, rfl, rfl⟩

example : LawfulAxis exAxis 2 ∧ PEq.peq exAxis exAxis = true := ⟨exAxis_lawful, by decide⟩
end
end NdHist
