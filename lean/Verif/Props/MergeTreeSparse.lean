import Verif.Props.MergeTree
import Verif.Props.SparseFill
import Verif.Props.Prog
/-!
# C54 for sparse histograms: splitting the data, filling in parallel and merging

The same plans as in `MergeTree.lean`, run with `HashHistogram`s. A hash map iterates in an unspecified order, so running a plan is a relation: every way a plan may
end. Each merge may use any of the three forms of addition (`&a + &b`, `a + &b`, `a += &b`) and any iteration orders.
-/
namespace NdHist
universe u

section
variable {A V M : Type} [cfg : Cfg] [Axis A] [PEq A] [ROps V] [RDefault V]

/-- Every way a plan run with sparse histograms on `axes` may end: with a histogram, with the error value of an addition, or with a panic. -/
inductive SparseOutcome (axes : A) :
    MergePlan (Call V (Axis.Coordinate A)) → Res (Except BinaryOperationError (HashHistogram A V)) → Prop where
  /-- a share filled to its end -/
  | share {cs m} : (HashHistogram.new axes : HashHistogram A V).callAll cs = (m, none) → SparseOutcome axes (.share cs) (.ok (.ok m))
  /-- a share whose filling panicked -/
  | sharePanic {cs m p} : (HashHistogram.new axes : HashHistogram A V).callAll cs = (m, some p) → SparseOutcome axes (.share cs) (.error p)
  /-- `&a + &b` -/
  | borrow {l r a b} (ko : HashHistogram.KeyOrder a b) : SparseOutcome axes l (.ok (.ok a)) → SparseOutcome axes r (.ok (.ok b)) →
      SparseOutcome axes (.merge l r) (a.opBorrow .add b ko)
  /-- `a + &b` -/
  | owned {l r a b} (ro : b.values.Order) : SparseOutcome axes l (.ok (.ok a)) → SparseOutcome axes r (.ok (.ok b)) →
      SparseOutcome axes (.merge l r) (a.opOwned .add b ro)
  /-- `a += &b` -/
  | assign {l r a b m} (ro : b.values.Order) : SparseOutcome axes l (.ok (.ok a)) → SparseOutcome axes r (.ok (.ok b)) →
      a.opAssign .add b ro = (m, none) → SparseOutcome axes (.merge l r) (.ok (.ok m))
  /-- `a += &b`, which panicked -/
  | assignPanic {l r a b m p} (ro : b.values.Order) : SparseOutcome axes l (.ok (.ok a)) → SparseOutcome axes r (.ok (.ok b)) →
      a.opAssign .add b ro = (m, some p) → SparseOutcome axes (.merge l r) (.error p)
  /-- the first sub-plan did not give a histogram -/
  | leftFails {l r x} : SparseOutcome axes l x → (∀ a, x ≠ .ok (.ok a)) → SparseOutcome axes (.merge l r) x
  /-- the second sub-plan did not give a histogram -/
  | rightFails {l r x} : SparseOutcome axes r x → (∀ a, x ≠ .ok (.ok a)) → SparseOutcome axes (.merge l r) x

/-- an iteration order exists: the order of the entries -/
def HMap.someOrder {K W : Type} (m : HMap K W) : m.Order := ⟨m.entries, List.Perm.refl _⟩

omit [Axis A] in
/-- an order of the keys of both histograms exists -/
def HashHistogram.someKeyOrder (l r : HashHistogram A V) : HashHistogram.KeyOrder l r :=
  ⟨(l.values.keys ++ r.values.keys).dedup, List.nodup_dedup _, fun k => by rw [List.mem_dedup, List.mem_append]⟩

omit [PEq A] [ROps V] [RDefault V] in
theorem HashHistogram.new_ok {axes : A} {n : Nat} (hl : LawfulAxis axes n) : (HashHistogram.new axes : HashHistogram A V).Ok n :=
  ⟨hl, HMap.nodup_empty, by simp [HashHistogram.new, HMap.empty, HMap.keys]⟩

omit [PEq A] [ROps V] in
theorem HashHistogram.callAll_caught {h h' : HashHistogram A V} {calls : List (Call V (Axis.Coordinate A))} (hr : h.callAll calls = (h', none)) :
    h' = h.callAllCaught calls := by
  have := HashHistogram.callAll_ok (h := h) (calls := calls) (by rw [hr])
  rwa [hr] at this

variable [LawfulROps V]

/-- the three forms of a successful addition, bin by bin -/
theorem HashHistogram.merged_values [AddCommMonoid M] {μ : V → M} (hμ : Additive μ) {a b m : HashHistogram A V} {n : Nat} (oa : a.Ok n) (ob : b.Ok n)
    (h : (∃ ko, a.opBorrow .add b ko = .ok (.ok m)) ∨ ∃ ro, a.opAssign .add b ro = (m, none)) :
    m.Ok n ∧ m.axes = a.axes ∧ ∀ i, (m.valueAtIndex i = none ↔ a.valueAtIndex i = none ∧ b.valueAtIndex i = none) ∧
      μ ((m.valueAtIndex i).getD RDefault.dflt) = μ ((a.valueAtIndex i).getD RDefault.dflt) + μ ((b.valueAtIndex i).getD RDefault.dflt) := by
  rcases h with ⟨ko, h⟩ | ⟨ro, h⟩
  · obtain ⟨o, ax, v⟩ := C33_binwise_sparse .add oa ob ko h
    refine ⟨o, ax, fun i => ?_⟩
    have := v i
    rcases hx : a.valueAtIndex i with _ | x <;> rcases hy : b.valueAtIndex i with _ | y <;> rw [hx, hy] at this <;>
      simp only [HashHistogram.merged, Option.getD_some, Option.getD_none] at this
    · rw [← Except.ok.inj this]; simp [hμ.dflt]
    all_goals
      simp only [Option.getD_some, Option.getD_none]
      revert this
      generalize hop : ROps.op (V := V) Op.add _ _ = z
      intro this
      cases z with
      | error p => cases this
      | ok z =>
        rw [← Except.ok.inj this]
        exact ⟨by simp, by rw [Option.getD_some]; exact hμ.add _ _ _ hop⟩
  · obtain ⟨o, ax, v1, v2⟩ := C33_assign_sparse .add oa ob ro h
    refine ⟨o, ax, fun i => ?_⟩
    rcases hy : b.valueAtIndex i with _ | y
    · rw [v1 i hy]; simp [hμ.dflt]
    · obtain ⟨z, z1, z2⟩ := v2 i y hy
      rw [z2]
      exact ⟨by simp, by simpa using hμ.add _ _ _ z1⟩

omit [LawfulROps V] in
theorem HashHistogram.opOwned_assign {a b m : HashHistogram A V} (ro : b.values.Order)
    (h : a.opOwned .add b ro = .ok (.ok m)) : a.opAssign .add b ro = (m, none) := by
  cases hax : PEq.peq a.axes b.axes with
  | true => exact (C35_sparse_owned_assign .add ro m hax).1.1 h
  | false => simp [HashHistogram.opOwned, hax] at h

/-- what a histogram a plan ended with holds -/
theorem SparseOutcome.content [AddCommMonoid M] {μ : V → M} {weight : Call V (Axis.Coordinate A) → M} (hμ : Additive μ) {axes : A} {n : Nat}
    (hl : LawfulAxis axes n) {plan : MergePlan (Call V (Axis.Coordinate A))} {x} (h : SparseOutcome axes plan x) :
    (∀ call ∈ plan.calls, Adds μ call.on (weight call)) → ∀ m, x = .ok (.ok m) →
      m.Ok n ∧ m.axes = axes ∧ ∀ i, (m.valueAtIndex i = none ↔ callsIn axes i plan.calls = []) ∧
        μ ((m.valueAtIndex i).getD RDefault.dflt) = ((callsIn axes i plan.calls).map weight).sum := by
  have step : ∀ {l r : MergePlan (Call V (Axis.Coordinate A))} {a b m : HashHistogram A V},
      (a.Ok n ∧ a.axes = axes ∧ ∀ i, (a.valueAtIndex i = none ↔ callsIn axes i l.calls = []) ∧
        μ ((a.valueAtIndex i).getD RDefault.dflt) = ((callsIn axes i l.calls).map weight).sum) →
      (b.Ok n ∧ b.axes = axes ∧ ∀ i, (b.valueAtIndex i = none ↔ callsIn axes i r.calls = []) ∧
        μ ((b.valueAtIndex i).getD RDefault.dflt) = ((callsIn axes i r.calls).map weight).sum) →
      ((∃ ko, a.opBorrow .add b ko = .ok (.ok m)) ∨ ∃ ro, a.opAssign .add b ro = (m, none)) →
      m.Ok n ∧ m.axes = axes ∧ ∀ i, (m.valueAtIndex i = none ↔ callsIn axes i (MergePlan.merge l r).calls = []) ∧
        μ ((m.valueAtIndex i).getD RDefault.dflt) = ((callsIn axes i (MergePlan.merge l r).calls).map weight).sum := by
    rintro l r a b m ⟨oa, xa, va⟩ ⟨ob, xb, vb⟩ h
    obtain ⟨o, ax, v⟩ := HashHistogram.merged_values hμ oa ob h
    refine ⟨o, by rw [ax, xa], fun i => ?_⟩
    have e : callsIn axes i (MergePlan.merge l r).calls = callsIn axes i l.calls ++ callsIn axes i r.calls := by
      simp only [MergePlan.calls, callsIn, List.filter_append]
    rw [(v i).1, (v i).2, (va i).1, (vb i).1, (va i).2, (vb i).2, e, List.append_eq_nil_iff, List.map_append, List.sum_append]
    exact ⟨Iff.rfl, rfl⟩
  induction h with
  | share hc =>
    intro hw m hm
    obtain rfl := Except.ok.inj (Except.ok.inj hm)
    refine ⟨by rw [HashHistogram.callAll_caught hc]; exact (HashHistogram.new_ok hl).callAllCaught _,
      by rw [HashHistogram.callAll_caught hc, HashHistogram.callAllCaught_axes]; rfl, fun i => ?_⟩
    have h1 := HashHistogram.callAll_isSome hc i
    have h2 := HashHistogram.callAll_measure hw hc i
    have hn : (HashHistogram.new axes : HashHistogram A V).valueAtIndex i = none := rfl
    rw [hn] at h1 h2
    rw [Option.getD_none, hμ.dflt, zero_add] at h2
    exact ⟨by rw [h1]; simp only [true_and]; exact Iff.rfl, h2⟩
  | sharePanic => intro _ m hm; cases hm
  | borrow ko _ _ ihl ihr =>
    intro hw m hm
    exact step (ihl (fun c hc => hw c (List.mem_append_left _ hc)) _ rfl) (ihr (fun c hc => hw c (List.mem_append_right _ hc)) _ rfl) (.inl ⟨ko, hm⟩)
  | owned ro _ _ ihl ihr =>
    intro hw m hm
    exact step (ihl (fun c hc => hw c (List.mem_append_left _ hc)) _ rfl) (ihr (fun c hc => hw c (List.mem_append_right _ hc)) _ rfl)
      (.inr ⟨ro, HashHistogram.opOwned_assign ro hm⟩)
  | assign ro _ _ ha ihl ihr =>
    intro hw m hm
    obtain rfl := Except.ok.inj (Except.ok.inj hm)
    exact step (ihl (fun c hc => hw c (List.mem_append_left _ hc)) _ rfl) (ihr (fun c hc => hw c (List.mem_append_right _ hc)) _ rfl) (.inr ⟨ro, ha⟩)
  | assignPanic => intro _ m hm; cases hm
  | leftFails _ hx => intro _ m hm; exact absurd hm (hx m)
  | rightFails _ hx => intro _ m hm; exact absurd hm (hx m)

/-- **C54 (sparse).** Whatever the plan, the forms of addition and the iteration orders, a histogram the plan ends with has the axes and, in every bin, the value (or the
absence of one) of the histogram that a single program filling all the data one after another, in any order, gets (if that does not panic). -/
theorem C54_plan_sparse [AddCommMonoid M] {μ : V → M} {weight : Call V (Axis.Coordinate A) → M} (hμ : Additive μ) {axes : A} {n : Nat}
    (hl : LawfulAxis axes n) {plan : MergePlan (Call V (Axis.Coordinate A))} {calls : List (Call V (Axis.Coordinate A))} (hp : calls.Perm plan.calls)
    (hw : ∀ call ∈ calls, Adds μ call.on (weight call)) {m h' : HashHistogram A V} (hrun : SparseOutcome axes plan (.ok (.ok m)))
    (hseq : (HashHistogram.new axes : HashHistogram A V).callAll calls = (h', none)) :
    m.axes = h'.axes ∧ ∀ i, m.valueAtIndex i = h'.valueAtIndex i := by
  obtain ⟨-, a1, v1⟩ := hrun.content hμ hl (fun c hc => hw c (hp.mem_iff.2 hc)) m rfl
  obtain ⟨-, a2, v2⟩ := (SparseOutcome.share hseq).content hμ hl hw h' rfl
  refine ⟨by rw [a1, a2], fun i => ?_⟩
  have hpi := callsIn_perm (axes := axes) hp i
  have hs : μ ((m.valueAtIndex i).getD RDefault.dflt) = μ ((h'.valueAtIndex i).getD RDefault.dflt) := by
    rw [(v1 i).2, (v2 i).2]; exact (hpi.map weight).sum_eq.symm
  have hn : m.valueAtIndex i = none ↔ h'.valueAtIndex i = none := by
    rw [(v1 i).1, (v2 i).1, MergePlan.calls]
    exact ⟨fun h => by rw [h] at hpi; exact hpi.eq_nil, fun h => by rw [h] at hpi; exact hpi.symm.eq_nil⟩
  have := hμ.inj _ _ hs
  rcases hx : m.valueAtIndex i with _ | x <;> rcases hy : h'.valueAtIndex i with _ | y
  · rfl
  · rw [hx, hy] at hn; simp at hn
  · rw [hx, hy] at hn; simp at hn
  · rw [hx, hy] at this; simpa using this
end

section
variable [cfg : Cfg] {τ : IntTy} {A : Type} [Axis A] [PEq A]

/-- C54 (sparse) for integer histograms of any type, unit and weighted fills, in either build profile. -/
theorem C54_plan_int_sparse {axes : A} {n : Nat} (hl : LawfulAxis axes n)
    {plan : MergePlan (Call (MInt τ) (Axis.Coordinate A))} {hist : List (Axis.Coordinate A × Option (MInt τ))}
    (hp : (numCalls hist).Perm plan.calls) {m h' : HashHistogram A (MInt τ)} (hrun : SparseOutcome axes plan (.ok (.ok m)))
    (hseq : (HashHistogram.new axes : HashHistogram A (MInt τ)).callAll (numCalls hist) = (h', none)) :
    m.axes = h'.axes ∧ ∀ i, m.valueAtIndex i = h'.valueAtIndex i :=
  C54_plan_sparse int_additive hl hp (fun call hm => someWeight_adds (numCalls_adds residue int_addAssign_residue _ call hm)) hrun hseq

/-- C54 (sparse), counting: when the plan's data are unit fills and their number fits the counter, the plan ends with a histogram, whatever the forms of addition and
the iteration orders: no panic, no error value. Its entry for a bin is the number of the coordinates which the interval of the bin contains, and it has no entry for a bin
that contains none of them. The axes must be equal to themselves (false only if they contain NaN). -/
theorem C54_count_sparse {axes : A} {n : Nat} {covers dom} (hf : FaithfulAxis axes n covers dom) (hrefl : PEq.peq axes axes = true)
    (plan : MergePlan (Call (MInt τ) (Axis.Coordinate A))) (cs : List (Axis.Coordinate A)) (hp : plan.calls = cs.map .fill) (hd : ∀ c ∈ cs, dom c)
    (hfit : (cs.length : ℤ) ≤ τ.max) :
    (∃ x, SparseOutcome axes plan x) ∧ ∀ x, SparseOutcome axes plan x → ∃ m : HashHistogram A (MInt τ), x = .ok (.ok m) ∧
      (∀ i, n ≤ i → m.valueAtIndex i = none) ∧ ∀ i b, i < n → Axis.bin axes i = .ok (some b) → ∀ [DecidablePred (covers b)],
        (m.valueAtIndex i).map (·.val) = if cs.countP (covers b) = 0 then none else some ((cs.countP (covers b) : ℕ) : ℤ) := by
  have hl := hf.lawful
  obtain ⟨d, hnew, -⟩ := C26_new (V := MInt τ) hl
  -- filling a share does not panic
  have hshare : ∀ cs : List (Axis.Coordinate A), (∀ c ∈ cs, dom c) → (cs.length : ℤ) ≤ τ.max →
      ((HashHistogram.new axes : HashHistogram A (MInt τ)).callAll (cs.map .fill)).2 = none := by
    intro cs hd hfit
    obtain ⟨h', items, h1, -⟩ := C52_count_int hf hnew cs hd hfit
    rw [(C31_until_panic hl hnew _).1, h1]
  have hadds : ∀ cs : List (Axis.Coordinate A), ∀ call ∈ (cs.map .fill : List (Call (MInt τ) (Axis.Coordinate A))),
      Adds (fun x : MInt τ => residue x) call.on (1 : ZMod (2 ^ τ.bits)) := by
    intro cs call hc
    obtain ⟨c, -, rfl⟩ := List.mem_map.1 hc
    have h1 : residue (@RNum.one (MInt τ) cfg _) = 1 := by
      show ((1 : Int) : ZMod (2 ^ τ.bits)) = 1
      simp
    rw [← h1]
    exact int_addAssign_residue _
  have key : ∀ (plan : MergePlan (Call (MInt τ) (Axis.Coordinate A))) (cs : List (Axis.Coordinate A)), plan.calls = cs.map .fill →
      (∀ c ∈ cs, dom c) → (cs.length : ℤ) ≤ τ.max → ∀ m, SparseOutcome axes plan (.ok (.ok m)) →
      m.Ok n ∧ m.axes = axes ∧ ∀ i, (m.valueAtIndex i = none ↔ callsIn axes i plan.calls = []) ∧
        ((m.valueAtIndex i).getD RDefault.dflt).val = ((callsIn axes i plan.calls).length : ℤ) := by
    intro plan cs hp hd hfit m hm
    obtain ⟨o, a, v⟩ := hm.content int_additive hl (weight := fun _ => 1) (by rw [hp]; exact hadds cs) m rfl
    refine ⟨o, a, fun i => ⟨(v i).1, ?_⟩⟩
    have hle : (callsIn axes i plan.calls).length ≤ cs.length := by
      refine (List.length_filter_le _ _).trans ?_
      rw [hp, List.length_map]
    have h0 := τ.min_le_zero
    have := residue_inj ((m.valueAtIndex i).getD RDefault.dflt) ⟨((callsIn axes i plan.calls).length : ℤ), by omega, by omega⟩ (by
      have e := (v i).2
      refine (show residue _ = _ from e).trans ?_
      simp [residue])
    rw [this]
  have total : ∀ (plan : MergePlan (Call (MInt τ) (Axis.Coordinate A))) (cs : List (Axis.Coordinate A)), plan.calls = cs.map .fill →
      (∀ c ∈ cs, dom c) → (cs.length : ℤ) ≤ τ.max →
      (∃ x, SparseOutcome axes plan x) ∧ ∀ x, SparseOutcome axes plan x → ∃ m : HashHistogram A (MInt τ), x = .ok (.ok m) := by
    intro plan
    induction plan with
    | share calls =>
      intro cs hp hd hfit
      have hp' : calls = cs.map .fill := hp
      subst hp'
      have hs := hshare cs hd hfit
      refine ⟨⟨_, .share (Prod.ext rfl hs)⟩, fun x hx => ?_⟩
      cases hx with
      | share => exact ⟨_, rfl⟩
      | sharePanic h => rw [h] at hs; cases hs
    | merge l r ihl ihr =>
      intro cs hp hd hfit
      obtain ⟨c1, c2, rfl, e1, e2⟩ := List.map_eq_append_iff.1 hp.symm
      rw [List.length_append] at hfit
      push_cast at hfit
      have d1 : ∀ c ∈ c1, dom c := fun c hc => hd c (List.mem_append_left _ hc)
      have d2 : ∀ c ∈ c2, dom c := fun c hc => hd c (List.mem_append_right _ hc)
      obtain ⟨⟨x1, s1⟩, t1⟩ := ihl c1 e1.symm d1 (by omega)
      obtain ⟨⟨x2, s2⟩, t2⟩ := ihr c2 e2.symm d2 (by omega)
      -- adding two results of the sub-plans succeeds in every form and order
      have hadd : ∀ a b, SparseOutcome axes l (.ok (.ok a)) → SparseOutcome axes r (.ok (.ok b)) →
          (∀ ko, ∃ m, a.opBorrow .add b ko = .ok (.ok m)) ∧ (∀ ro, ∃ m, a.opOwned .add b ro = .ok (.ok m)) ∧ ∀ ro, ∃ m, a.opAssign .add b ro = (m, none) := by
        intro a b ha hb
        obtain ⟨oa, xa, va⟩ := key l c1 e1.symm d1 (by omega) a ha
        obtain ⟨ob, xb, vb⟩ := key r c2 e2.symm d2 (by omega) b hb
        have hax : PEq.peq a.axes b.axes = true := by rw [xa, xb]; exact hrefl
        have hsum : ∀ i, ∃ z, ROps.op .add ((a.valueAtIndex i).getD RDefault.dflt) ((b.valueAtIndex i).getD RDefault.dflt) = .ok z := by
          intro i
          have h1 := (va i).2
          have h2 := (vb i).2
          have l1 : (callsIn axes i l.calls).length ≤ c1.length := by
            refine (List.length_filter_le _ _).trans ?_
            rw [← e1, List.length_map]
          have l2 : (callsIn axes i r.calls).length ≤ c2.length := by
            refine (List.length_filter_le _ _).trans ?_
            rw [← e2, List.length_map]
          have h0 := τ.min_le_zero
          refine ⟨_, show MInt.arith _ = _ from dif_pos ?_⟩
          rw [h1, h2]
          constructor <;> omega
        have hown : ∀ ro, ∃ m, a.opOwned .add b ro = .ok (.ok m) := fun ro =>
          (C35_sparse_exact .add oa ob hax (HashHistogram.someKeyOrder a b) ro).2.1.2 fun i _ => hsum i
        refine ⟨fun ko => (C35_sparse_exact .add oa ob hax ko (HMap.someOrder _)).1.2 fun i _ => hsum i, hown, fun ro => ?_⟩
        obtain ⟨m, hm⟩ := hown ro
        exact ⟨m, HashHistogram.opOwned_assign ro hm⟩
      obtain ⟨a, rfl⟩ := t1 x1 s1
      obtain ⟨b, rfl⟩ := t2 x2 s2
      refine ⟨⟨_, .borrow (HashHistogram.someKeyOrder a b) s1 s2⟩, fun x hx => ?_⟩
      cases hx with
      | borrow ko ha hb => exact (hadd _ _ ha hb).1 ko
      | owned ro ha hb => exact (hadd _ _ ha hb).2.1 ro
      | assign => exact ⟨_, rfl⟩
      | assignPanic ro ha hb h =>
        obtain ⟨m', hm'⟩ := (hadd _ _ ha hb).2.2 ro
        rw [hm'] at h; cases h
      | leftFails h hx =>
        obtain ⟨m, rfl⟩ := t1 _ h
        exact absurd rfl (hx m)
      | rightFails h hx =>
        obtain ⟨m, rfl⟩ := t2 _ h
        exact absurd rfl (hx m)
  obtain ⟨he, ht⟩ := total plan cs hp hd hfit
  refine ⟨he, fun x hx => ?_⟩
  obtain ⟨m, rfl⟩ := ht x hx
  obtain ⟨o, a, v⟩ := key plan cs hp hd hfit m hx
  refine ⟨m, rfl, fun i hi => ?_, fun i b hi hb => ?_⟩
  · rw [(v i).1, callsIn, List.filter_eq_nil_iff]
    intro call _ hc
    have := hl.index_lt call.coord i (by simpa using hc)
    omega
  intro hdec
  have hlen : (callsIn axes i plan.calls).length = cs.countP (covers b) := by
    classical
    rw [hp, callsIn_eq_covers hf (by
      intro call hcall
      obtain ⟨c, hc, rfl⟩ := List.mem_map.1 hcall
      exact hd c hc) hi hb, filter_map_fill, List.length_map, List.countP_eq_length_filter]
    congr 2
    funext c
    exact decide_eq_decide.2 Iff.rfl
  obtain ⟨v1, v2⟩ := v i
  rw [hlen] at v2
  rw [← List.length_eq_zero_iff, hlen] at v1
  rcases hm : m.valueAtIndex i with _ | w
  · rw [if_pos (v1.1 hm)]; rfl
  · rw [if_neg (fun h => by rw [v1.2 h] at hm; cases hm)]
    rw [hm, Option.getD_some] at v2
    rw [Option.map_some, v2]
end

/-! ## Concrete cases -/

section
attribute [local instance] dbg64

/-- the plan `exPlan` run with sparse histograms, the inner merge with `+=` and the outer one with `&a + &b` -/
theorem exSparseOutcome : ∃ m : HashHistogram (CategoryNoFlow String) (MInt .u8), SparseOutcome exAxis exPlan (.ok (.ok m)) ∧
    m.valueAtIndex 0 = some (MInt.lit 1) ∧ m.valueAtIndex 1 = some (MInt.lit 2) := by
  refine ⟨⟨exAxis, ⟨[(1, MInt.lit 2), (0, MInt.lit 1)]⟩⟩, ?_, by decide +kernel, by decide +kernel⟩
  let hist (l : List (Nat × MInt .u8)) : HashHistogram (CategoryNoFlow String) (MInt .u8) := ⟨exAxis, ⟨l⟩⟩
  have h1 : SparseOutcome (V := MInt .u8) exAxis (.share ([.fill "b", .fill "x"] : List (Call (MInt .u8) String))) (.ok (.ok (hist [(1, MInt.lit 1)]))) :=
    .share rfl
  have h2 : SparseOutcome (V := MInt .u8) exAxis (.share ([] : List (Call (MInt .u8) String))) (.ok (.ok (hist []))) := .share rfl
  have h3 : SparseOutcome (V := MInt .u8) exAxis (.share ([.fill "a", .fill "b"] : List (Call (MInt .u8) String)))
      (.ok (.ok (hist [(0, MInt.lit 1), (1, MInt.lit 1)]))) := .share rfl
  have h4 : SparseOutcome (V := MInt .u8) exAxis _ (.ok (.ok (hist [(0, MInt.lit 1), (1, MInt.lit 1)]))) := .assign (HMap.someOrder _) h2 h3 rfl
  refine .borrow ⟨[1, 0], by decide, fun k => ?_⟩ h1 h4
  show k ∈ [1, 0] ↔ k ∈ [1] ∨ k ∈ [0, 1]
  simp only [List.mem_cons, List.not_mem_nil, or_false]
  omega

/-- the theorems apply to it, and its entries are those of the histogram filled one after another -/
example : ∃ m h' : HashHistogram (CategoryNoFlow String) (MInt .u8), SparseOutcome exAxis exPlan (.ok (.ok m)) ∧
    (HashHistogram.new exAxis).callAll ([.fill "x", .fill "b", .fill "b", .fill "a"] : List (Call (MInt .u8) String)) = (h', none) ∧
    m.axes = h'.axes ∧ ∀ i, m.valueAtIndex i = h'.valueAtIndex i := by
  obtain ⟨m, hm, -⟩ := exSparseOutcome
  refine ⟨m, ⟨exAxis, ⟨[(1, MInt.lit 2), (0, MInt.lit 1)]⟩⟩, hm, by rfl, ?_⟩
  exact C54_plan_int_sparse (A := CategoryNoFlow String) (hist := [("x", none), ("b", none), ("b", none), ("a", none)]) exAxis_lawful
    (show (_ : List (Call (MInt .u8) String)).Perm [.fill "b", .fill "x", .fill "a", .fill "b"] by
      simp only [numCalls, List.map_cons, List.map_nil]
      refine (List.Perm.swap _ _ _).trans ((List.Perm.cons _ ((List.Perm.cons _ (List.Perm.swap _ _ _))))) ) hm (by rfl)

/-- counting, over every way the plan may be run -/
example : (∃ x, SparseOutcome (V := MInt .u8) exAxis exPlan x) ∧ ∀ x, SparseOutcome (V := MInt .u8) exAxis exPlan x → ∃ m : HashHistogram (CategoryNoFlow String) (MInt .u8),
    x = .ok (.ok m) ∧ (m.valueAtIndex 0).map (·.val) = some 1 ∧ (m.valueAtIndex 1).map (·.val) = some 2 := by
  have hf : FaithfulAxis exAxis 2 (SingleValueBinInterval.Covers ["a", "b"]) (fun _ => True) := C51_category_noflow ["a", "b"] (by decide) (by decide)
  obtain ⟨h1, h2⟩ := C54_count_sparse (τ := .u8) hf (by decide) exPlan ["b", "x", "a", "b"] rfl (fun _ _ => trivial) (by decide)
  refine ⟨h1, fun x hx => ?_⟩
  obtain ⟨m, rfl, -, hm⟩ := h2 x hx
  classical
  refine ⟨m, rfl, (hm 0 (SingleValueBinInterval.Bin "a") (by decide) rfl).trans ?_, (hm 1 (SingleValueBinInterval.Bin "b") (by decide) rfl).trans ?_⟩ <;>
    simp [SingleValueBinInterval.Covers]

/-- the plan theorem at `C54_plan_sparse` itself -/
example {m h' : HashHistogram (CategoryNoFlow String) (MInt .u8)} (hm : SparseOutcome exAxis exPlan (.ok (.ok m)))
    (hs : (HashHistogram.new exAxis).callAll ([.fill "b", .fill "x", .fill "a", .fill "b"] : List (Call (MInt .u8) String)) = (h', none)) :
    ∀ i, m.valueAtIndex i = h'.valueAtIndex i :=
  (C54_plan_sparse (A := CategoryNoFlow String) (weight := fun _ => residue (@RNum.one (MInt .u8) _ _)) int_additive exAxis_lawful (List.Perm.refl _)
    (fun call hc => by
      have hc' : call ∈ ([.fill "b", .fill "x", .fill "a", .fill "b"] : List (Call (MInt .u8) String)) := hc
      fin_cases hc' <;> exact int_addAssign_residue _) hm hs).2
end
end NdHist
