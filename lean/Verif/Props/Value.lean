import Verif.Exact
import Verif.Props.Fill
import Verif.Model.Float
import Mathlib.Tactic.Ring
import Mathlib.Tactic.FieldSimp
import Mathlib.Tactic.Positivity
import Mathlib.Tactic.Linarith
import Mathlib.Algebra.BigOperators.Ring.List
import Mathlib.Algebra.Order.BigOperators.Group.List
import Mathlib.Analysis.SpecialFunctions.Sqrt
/-!
# Bin values: C40 - C42
-/
namespace NdHist
open RNum

/-! ## Additive quantities -/

/-- the update adds `w` to the quantity `μ`, unless it panics -/
def Adds {V M : Type} [Add M] (μ : V → M) (u : Upd V) (w : M) : Prop :=
  ∀ v v', u v = (v', none) → μ v' = μ v + w

theorem Adds.on {V M C : Type} [Add M] {μ : V → M} {call : Call V C} {w : M} (h : Adds μ call.on w) :
    ∀ v, (call.on v).2 = none → μ (call.on v).1 = μ v + w :=
  fun v hv => h v _ (Prod.ext rfl hv)

theorem fillSeq_adds {V C M α : Type} [AddMonoid M] {μ : V → M} (f : α → Call V C) (weight : α → M) {l : List α}
    (h : ∀ a ∈ l, Adds μ (f a).on (weight a)) {v v' : V} (hr : fillSeq (l.map f) v = (v', none)) :
    μ v' = μ v + (l.map weight).sum := by
  induction l generalizing v with
  | nil => simp only [List.map_nil, fillSeq, Prod.mk.injEq, and_true] at hr; subst hr; simp
  | cons c cs ih =>
    rcases hc : (f c).on v with ⟨w, _ | p⟩
    · simp only [List.map_cons, fillSeq, hc] at hr
      rw [ih (fun call hm => h call (List.mem_cons_of_mem _ hm)) hr, h c (List.mem_cons_self ..) v w hc]
      simp [add_assoc]
    · simp [fillSeq, hc] at hr

theorem sum_pair {α M N : Type} [AddCommMonoid M] [AddCommMonoid N] (l : List α) (f : α → M) (g : α → N) :
    (l.map fun a => (f a, g a)).sum = ((l.map f).sum, (l.map g).sum) := by
  induction l with
  | nil => rfl
  | cons a l ih => simp [ih]

theorem sum_map_one {α K : Type} [Field K] (l : List α) : (l.map fun _ => (1 : K)).sum = l.length := by
  simp

/-- without panics `fillSeq` is `filledWith` -/
theorem fillSeq_eq {V C : Type} {calls : List (Call V C)} {v v' : V} (hr : fillSeq calls v = (v', none)) :
    v' = filledWith calls v := by
  induction calls generalizing v with
  | nil => simp only [fillSeq, Prod.mk.injEq, and_true] at hr; exact hr.symm
  | cons c cs ih =>
    rcases hc : c.on v with ⟨w, _ | p⟩
    · simp only [fillSeq, hc] at hr
      rw [ih hr]
      simp [filledWith, hc]
    · simp [fillSeq, hc] at hr

theorem andThen_none {σ : Type} {f g : Upd σ} {s s' : σ} (h : Upd.andThen f g s = (s', none)) :
    ∃ t, f s = (t, none) ∧ g t = (s', none) := by
  unfold Upd.andThen at h
  split at h
  · rename_i t ht; exact ⟨t, ht, h⟩
  · simp at h

theorem onField_none {σ τ : Type} {get : σ → τ} {set : σ → τ → σ} {f : Upd τ} {s s' : σ}
    (h : Upd.onField get set f s = (s', none)) : ∃ t, f (get s) = (t, none) ∧ s' = set s t := by
  simp only [Upd.onField, Prod.mk.injEq] at h
  exact ⟨(f (get s)).1, Prod.ext rfl h.2, h.1.symm⟩

theorem withVal_none {σ α : Type} {r : Res α} {f : α → Upd σ} {s s' : σ} (h : Upd.withVal r f s = (s', none)) :
    ∃ a, r = .ok a ∧ f a s = (s', none) := by
  unfold Upd.withVal at h
  split at h
  · rename_i a; exact ⟨a, rfl, h⟩
  · simp at h

section
variable [Cfg]

theorem addAssign_none {T : Type} [RNum T] {d s s' : T} (h : addAssign d s = (s', none)) : add s d = .ok s' := by
  unfold addAssign Upd.store at h
  split at h
  · rename_i t ht; simp at h; subst h; exact ht
  · simp at h

/-! ### each value type adds what it should -/

variable {T W C O K : Type} [RNum T] [RNum W] [RNum C] [Field K] [RFrom T K] [RFrom W K] [RFrom C K]
  [Faithful T K] [Faithful W K] [Faithful C K]

theorem addAssign_adds (d : T) : Adds (fun x : T => (RFrom.conv x : K)) (addAssign d) (RFrom.conv d) := by
  intro v v' h
  exact Faithful.add _ _ _ (addAssign_none h)

theorem num_fill_adds : Adds (fun x : T => (RFrom.conv x : K)) Fill.fill 1 := by
  intro v v' h
  have := addAssign_adds (K := K) (one : T) v v' h
  rw [this, Faithful.one]

theorem num_fillWith_adds (d : T) : Adds (fun x : T => (RFrom.conv x : K)) (FillWith.fillWith d) (RFrom.conv d) :=
  addAssign_adds d

theorem sum_fill_adds : Adds (fun x : Sum T => (RFrom.conv x.get : K)) Fill.fill 1 := by
  intro v v' h
  obtain ⟨t, h1, rfl⟩ := onField_none h
  exact num_fill_adds v.sum t h1

theorem sum_fillWith_adds (d : T) : Adds (fun x : Sum T => (RFrom.conv x.get : K)) (FillWith.fillWith d) (RFrom.conv d) := by
  intro v v' h
  obtain ⟨t, h1, rfl⟩ := onField_none h
  exact num_fillWith_adds d v.sum t h1

/-- the content of a `WeightedSum`, as numbers -/
def wsMeasure (K : Type) [RFrom T K] (x : WeightedSum T) : K × K := (RFrom.conv x.sumw, RFrom.conv x.sumw2)

theorem weightedSum_fill_adds : Adds (wsMeasure (T := T) K) Fill.fill (1, 1) := by
  intro v v' h
  obtain ⟨t, h1, h2⟩ := andThen_none h
  obtain ⟨x, h3, rfl⟩ := onField_none h1
  obtain ⟨y, h4, rfl⟩ := onField_none h2
  exact Prod.ext (num_fill_adds v.sumw x h3) (num_fill_adds v.sumw2 y h4)

theorem weightedSum_fillWith_adds (d : T) : Adds (wsMeasure (T := T) K) (FillWith.fillWith d)
    (RFrom.conv d, RFrom.conv d ^ 2) := by
  intro v v' h
  obtain ⟨t, h1, h2⟩ := andThen_none h
  obtain ⟨x, h3, rfl⟩ := onField_none h1
  obtain ⟨dd, h5, h6⟩ := withVal_none h2
  obtain ⟨y, h4, rfl⟩ := onField_none h6
  refine Prod.ext (num_fillWith_adds d v.sumw x h3) ?_
  have h7 := num_fillWith_adds (K := K) dd v.sumw2 y h4
  have h8 : (RFrom.conv dd : K) = RFrom.conv d * RFrom.conv d := Faithful.mul _ _ _ h5
  rw [h8] at h7
  rw [sq]
  exact h7

/-- the content of a `Mean`, as numbers -/
def meanMeasure (K : Type) [RFrom T K] [RFrom C K] (x : Mean T O C) : K × K × K :=
  (RFrom.conv x.sumw, RFrom.conv x.sumw2, RFrom.conv x.count)

theorem mean_adds (d : T) : Adds (meanMeasure (T := T) (O := O) (C := C) K) (FillWith.fillWith d)
    (RFrom.conv d, RFrom.conv d ^ 2, 1) := by
  intro v v' h
  obtain ⟨t, h1, h2⟩ := andThen_none h
  obtain ⟨x, h3, rfl⟩ := onField_none h1
  obtain ⟨t', h1', h2'⟩ := andThen_none h2
  obtain ⟨dd, h5, h6⟩ := withVal_none h1'
  obtain ⟨y, h4, rfl⟩ := onField_none h6
  obtain ⟨z, h7, rfl⟩ := onField_none h2'
  have e1 := addAssign_adds (K := K) d v.sumw x h3
  have e2 := addAssign_adds (K := K) dd v.sumw2 y h4
  have e3 := addAssign_adds (K := K) (one : C) v.count z h7
  have e4 : (RFrom.conv dd : K) = RFrom.conv d * RFrom.conv d := Faithful.mul _ _ _ h5
  rw [e4] at e2
  rw [Faithful.one] at e3
  rw [sq]
  exact Prod.ext e1 (Prod.ext e2 e3)

/-- the content of a `WeightedMean`, as numbers -/
def wmMeasure (K : Type) [RFrom T K] [RFrom W K] [RFrom C K] (x : WeightedMean T W O C) : K × K × K × K × K :=
  (RFrom.conv x.sumwt, RFrom.conv x.sumwt2, RFrom.conv x.sumw, RFrom.conv x.sumw2, RFrom.conv x.count)

/-- `T * W` is computed faithfully -/
class FaithfulMul (T W K : Type) [RMulBy T W] [Field K] [RFrom T K] [RFrom W K] : Prop where
  mulBy : ∀ (a : T) (b : W) (c : T), RMulBy.mulBy a b = .ok c → (RFrom.conv c : K) = RFrom.conv a * RFrom.conv b

instance : FaithfulMul T T K := ⟨fun a b c h => Faithful.mul a b c h⟩

theorem weightedMean_adds [RMulBy T W] [FaithfulMul T W K] (d : T) (w : W) :
    Adds (wmMeasure (T := T) (W := W) (O := O) (C := C) K) (FillWithWeighted.fillWithWeighted d w)
      (RFrom.conv w * RFrom.conv d, RFrom.conv w * RFrom.conv d ^ 2, RFrom.conv w, RFrom.conv w ^ 2, 1) := by
  intro v v' h
  obtain ⟨t1, a1, h⟩ := andThen_none h
  obtain ⟨t2, a2, h⟩ := andThen_none h
  obtain ⟨t3, a3, h⟩ := andThen_none h
  obtain ⟨t4, a4, a5⟩ := andThen_none h
  obtain ⟨x1, b1, a1⟩ := withVal_none a1
  obtain ⟨y1, c1, rfl⟩ := onField_none a1
  obtain ⟨x2, b2, a2⟩ := withVal_none a2
  obtain ⟨y2, c2, rfl⟩ := onField_none a2
  obtain ⟨y3, c3, rfl⟩ := onField_none a3
  obtain ⟨x4, b4, a4⟩ := withVal_none a4
  obtain ⟨y4, c4, rfl⟩ := onField_none a4
  obtain ⟨y5, c5, rfl⟩ := onField_none a5
  rw [Res.bind_eq_ok] at b2
  obtain ⟨v2, b2, b2'⟩ := b2
  have e1 := addAssign_adds (K := K) x1 v.sumwt y1 c1
  have e2 := addAssign_adds (K := K) x2 v.sumwt2 y2 c2
  have e3 := addAssign_adds (K := K) w v.sumw y3 c3
  have e4 := addAssign_adds (K := K) x4 v.sumw2 y4 c4
  have e5 := addAssign_adds (K := K) (one : C) v.count y5 c5
  have f1 : (RFrom.conv x1 : K) = RFrom.conv d * RFrom.conv w := FaithfulMul.mulBy _ _ _ b1
  have f2 : (RFrom.conv v2 : K) = RFrom.conv d * RFrom.conv d := Faithful.mul _ _ _ b2
  have f3 : (RFrom.conv x2 : K) = RFrom.conv v2 * RFrom.conv w := FaithfulMul.mulBy _ _ _ b2'
  have f4 : (RFrom.conv x4 : K) = RFrom.conv w * RFrom.conv w := Faithful.mul _ _ _ b4
  simp only at e1 e2 e3 e4 e5
  rw [f1] at e1; rw [f3, f2] at e2; rw [f4] at e4; rw [Faithful.one] at e5
  simp only [wmMeasure, Prod.mk_add_mk, Prod.mk.injEq]
  refine ⟨by rw [e1]; ring, by rw [e2]; ring, e3, by rw [e4]; ring, e5⟩

end

/-! ## C40 -/

section
variable [Cfg] {T K : Type} [RNum T] [Field K] [RFrom T K] [Faithful T K]

/-- C40: `Sum` after weighted fills that did not panic: `get` is the sum of the weights, and so is `variance`. -/
theorem C40_sum_weighted (ws : List T) {s : Sum T}
    (h : fillSeq (ws.map fun w => (Call.fillWith () w : Call (Sum T) Unit)) Sum.new = (s, none)) :
    (RFrom.conv s.get : K) = (ws.map fun w => (RFrom.conv w : K)).sum ∧ s.variance = s.get := by
  refine ⟨?_, rfl⟩
  have := fillSeq_adds (μ := fun x : Sum T => (RFrom.conv x.get : K)) _ (fun w => (RFrom.conv w : K))
    (fun w _ => sum_fillWith_adds (K := K) w) h
  refine this.trans ?_
  have h0 : (RFrom.conv (Sum.new : Sum T).get : K) = 0 := Faithful.zero
  simp only [h0, zero_add]

/-- C40: `Sum` after `n` unit fills that did not panic: `get` is `n`, and so is `variance`. -/
theorem C40_sum_unit (n : Nat) {s : Sum T}
    (h : fillSeq (List.replicate n (Call.fill () : Call (Sum T) Unit)) Sum.new = (s, none)) :
    (RFrom.conv s.get : K) = n ∧ s.variance = s.get := by
  refine ⟨?_, rfl⟩
  have e : List.replicate n (Call.fill () : Call (Sum T) Unit) = (List.range n).map fun _ => Call.fill () := by
    apply List.ext_getElem <;> simp
  rw [e] at h
  have := fillSeq_adds (μ := fun x : Sum T => (RFrom.conv x.get : K)) _ (fun _ => (1 : K))
    (fun w _ => sum_fill_adds (K := K)) h
  refine this.trans ?_
  have h0 : (RFrom.conv (Sum.new : Sum T).get : K) = 0 := Faithful.zero
  simp only [h0, zero_add, sum_map_one, List.length_range]

/-- C40: `WeightedSum` after weighted fills that did not panic: `get` is the sum of the weights, `variance` the sum of their
squares, which is not negative. -/
theorem C40_weighted_sum [LinearOrder K] [IsStrictOrderedRing K] (ws : List T) {s : WeightedSum T}
    (h : fillSeq (ws.map fun w => (Call.fillWith () w : Call (WeightedSum T) Unit)) WeightedSum.new = (s, none)) :
    (RFrom.conv s.get : K) = (ws.map fun w => (RFrom.conv w : K)).sum ∧
    (RFrom.conv s.variance : K) = (ws.map fun w => (RFrom.conv w : K) ^ 2).sum ∧
    (0 : K) ≤ RFrom.conv s.variance := by
  have := fillSeq_adds (μ := wsMeasure (T := T) K) _ (fun w => ((RFrom.conv w : K), (RFrom.conv w : K) ^ 2))
    (fun w _ => weightedSum_fillWith_adds (K := K) w) h
  rw [sum_pair] at this
  have h0 : wsMeasure K (WeightedSum.new : WeightedSum T) = 0 := Prod.ext Faithful.zero Faithful.zero
  rw [h0, zero_add] at this
  have e1 : (RFrom.conv s.get : K) = _ := congrArg Prod.fst this
  have e2 : (RFrom.conv s.variance : K) = _ := congrArg Prod.snd this
  refine ⟨e1, e2, ?_⟩
  rw [e2]
  apply List.sum_nonneg
  intro x hx
  obtain ⟨w, _, rfl⟩ := List.mem_map.1 hx
  positivity

/-- C40: unit fills of a `WeightedSum` count in both sums. -/
theorem C40_weighted_sum_unit (n : Nat) {s : WeightedSum T}
    (h : fillSeq (List.replicate n (Call.fill () : Call (WeightedSum T) Unit)) WeightedSum.new = (s, none)) :
    (RFrom.conv s.get : K) = n ∧ (RFrom.conv s.variance : K) = n := by
  have e : List.replicate n (Call.fill () : Call (WeightedSum T) Unit) = (List.range n).map fun _ => Call.fill () := by
    apply List.ext_getElem <;> simp
  rw [e] at h
  have := fillSeq_adds (μ := wsMeasure (T := T) K) _ (fun _ => ((1 : K), (1 : K)))
    (fun w _ => weightedSum_fill_adds (K := K)) h
  rw [sum_pair, sum_map_one, List.length_range] at this
  have h0 : wsMeasure K (WeightedSum.new : WeightedSum T) = 0 := Prod.ext Faithful.zero Faithful.zero
  rw [h0, zero_add] at this
  exact ⟨congrArg Prod.fst this, congrArg Prod.snd this⟩
end

/-! ## C41 -/

section
variable [Cfg] {T C K : Type} [Field K] [LinearOrder K] [IsStrictOrderedRing K] [FloorRing K]
  [RNum T] [RNum C] [RFrom T K] [RFrom C K] [Faithful T K] [Faithful C K]

/-- `Signed::abs` in exact arithmetic -/
@[reducible] def exactAbs (K : Type) [Field K] [LinearOrder K] : RAbs K := ⟨fun x => .ok |x|⟩

/-- the arithmetic mean of a list of numbers -/
def avg (l : List K) : K := l.sum / l.length

theorem sum_sq_dev (l : List K) (m : K) :
    (l.map fun x => (x - m) ^ 2).sum = (l.map fun x => x ^ 2).sum - 2 * m * l.sum + l.length * m ^ 2 := by
  induction l with
  | nil => simp
  | cons a l ih => simp only [List.map_cons, List.sum_cons, ih, List.length_cons, Nat.cast_add, Nat.cast_one]; ring

theorem avg_sq_dev (l : List K) (hl : l ≠ []) :
    avg (l.map fun x => (x - avg l) ^ 2) = (l.map fun x => x ^ 2).sum / l.length - avg l * avg l := by
  have hn : (l.length : K) ≠ 0 := by
    have : l.length ≠ 0 := by simpa using hl
    exact_mod_cast this
  unfold avg
  rw [sum_sq_dev, List.length_map]
  field_simp
  ring

theorem avg_sq_dev_nonneg (l : List K) : 0 ≤ avg (l.map fun x => (x - avg l) ^ 2) := by
  unfold avg
  apply div_nonneg
  · apply List.sum_nonneg
    intro x hx
    obtain ⟨w, _, rfl⟩ := List.mem_map.1 hx
    positivity
  · positivity

theorem mean_state (xs : List T) {m : Mean T K C}
    (h : fillSeq (xs.map fun x => (Call.fillWith () x : Call (Mean T K C) Unit)) RDefault.dflt = (m, none)) :
    (RFrom.conv m.sumw : K) = (xs.map fun x => (RFrom.conv x : K)).sum ∧
    (RFrom.conv m.sumw2 : K) = ((xs.map fun x => (RFrom.conv x : K)).map fun y => y ^ 2).sum ∧
    (RFrom.conv m.count : K) = xs.length := by
  have := fillSeq_adds (μ := meanMeasure (T := T) (O := K) (C := C) K) _
    (fun x => ((RFrom.conv x : K), (RFrom.conv x : K) ^ 2, (1 : K)))
    (fun x _ => mean_adds (K := K) x) h
  rw [sum_pair, sum_pair, sum_map_one] at this
  have h0 : meanMeasure K (RDefault.dflt : Mean T K C) = 0 :=
    Prod.ext Faithful.zero (Prod.ext Faithful.zero Faithful.zero)
  rw [h0, zero_add] at this
  refine ⟨congrArg Prod.fst this, ?_, congrArg (fun x => x.2.2) this⟩
  rw [List.map_map]
  exact congrArg (fun x => x.2.1) this

attribute [local instance] exactNum exactAbs in
/-- C41: after any non-empty sequence of samples `xs` that did not panic: `get` is the arithmetic mean, `num_samples` their number,
`variance_of_samples` the mean squared deviation from the mean, `variance_of_mean` that divided by the number of
samples; the variances are not negative. (Output in exact arithmetic.) -/
theorem C41_mean (xs : List T) (hne : xs ≠ []) {m : Mean T K C}
    (h : fillSeq (xs.map fun x => (Call.fillWith () x : Call (Mean T K C) Unit)) RDefault.dflt = (m, none)) :
    let ys : List K := xs.map fun x => RFrom.conv x
    m.get = .ok (avg ys) ∧
    (RFrom.conv m.numSamples : K) = xs.length ∧
    m.varianceOfSamples = .ok (avg (ys.map fun y => (y - avg ys) ^ 2)) ∧
    m.varianceOfMean = .ok (avg (ys.map fun y => (y - avg ys) ^ 2) / xs.length) ∧
    0 ≤ avg (ys.map fun y => (y - avg ys) ^ 2) := by
  intro ys
  obtain ⟨e1, e2, e3⟩ := mean_state xs h
  have hn : (xs.length : K) ≠ 0 := by
    have : xs.length ≠ 0 := by simpa using hne
    exact_mod_cast this
  have hlen : (ys.length : K) = xs.length := by simp [ys]
  have hmean : m.mean = .ok (avg ys) := by
    simp only [Mean.mean, RNum.div, e1, e3, hn, if_false]
    unfold avg; rw [hlen]
  have hvar : m.varianceOfSamples = .ok (avg (ys.map fun y => (y - avg ys) ^ 2)) := by
    simp only [Mean.varianceOfSamples, hmean, bind, Except.bind, RNum.mul, RNum.div, RNum.sub, RAbs.abs, e2, e3, hn, if_false]
    rw [avg_sq_dev ys (by simpa [ys] using hne), hlen, abs_of_nonneg]
    have := avg_sq_dev_nonneg ys
    rw [avg_sq_dev ys (by simpa [ys] using hne), hlen] at this
    exact this
  refine ⟨hmean, e3, hvar, ?_, avg_sq_dev_nonneg ys⟩
  simp only [Mean.varianceOfMean, hvar, bind, Except.bind, RNum.div, e3, hn, if_false]
end

/-! ## C42 -/

section
variable [Cfg] {T W C K : Type} [Field K] [LinearOrder K] [IsStrictOrderedRing K] [FloorRing K]
  [RNum T] [RNum W] [RNum C] [RFrom T K] [RFrom W K] [RFrom C K] [Faithful T K] [Faithful W K] [Faithful C K]
  [RMulBy T W] [FaithfulMul T W K]

/-- total weight of samples `(value, weight)` -/
def totalWeight (l : List (K × K)) : K := (l.map fun x => x.2).sum
/-- weighted mean -/
def wavg (l : List (K × K)) : K := (l.map fun x => x.2 * x.1).sum / totalWeight l
/-- weighted mean squared deviation from the weighted mean -/
def wvar (l : List (K × K)) : K := (l.map fun x => x.2 * (x.1 - wavg l) ^ 2).sum / totalWeight l

theorem sum_wsq_dev (l : List (K × K)) (m : K) :
    (l.map fun x => x.2 * (x.1 - m) ^ 2).sum =
      (l.map fun x => x.2 * x.1 ^ 2).sum - 2 * m * (l.map fun x => x.2 * x.1).sum + totalWeight l * m ^ 2 := by
  unfold totalWeight
  induction l with
  | nil => simp
  | cons a l ih => simp only [List.map_cons, List.sum_cons, ih]; ring

theorem wvar_eq (l : List (K × K)) (hw : totalWeight l ≠ 0) :
    wvar l = wavg l * wavg l +
      ((l.map fun x => x.2 * x.1 ^ 2).sum - (1 + 1) * (l.map fun x => x.2 * x.1).sum * wavg l) / totalWeight l := by
  rw [wvar, sum_wsq_dev]
  field_simp
  ring

theorem wvar_nonneg (l : List (K × K)) (h : ∀ x ∈ l, 0 ≤ x.2) : 0 ≤ wvar l := by
  unfold wvar totalWeight
  apply div_nonneg
  · apply List.sum_nonneg
    intro x hx
    obtain ⟨w, hw, rfl⟩ := List.mem_map.1 hx
    exact mul_nonneg (h w hw) (sq_nonneg _)
  · apply List.sum_nonneg
    intro x hx
    obtain ⟨w, hw, rfl⟩ := List.mem_map.1 hx
    exact h w hw

theorem wmean_state (xs : List (T × W)) {m : WeightedMean T W K C}
    (h : fillSeq (xs.map fun x => (Call.fillWithWeighted () x.1 x.2 : Call (WeightedMean T W K C) Unit)) RDefault.dflt =
      (m, none)) :
    let ys : List (K × K) := xs.map fun x => (RFrom.conv x.1, RFrom.conv x.2)
    (RFrom.conv m.sumwt : K) = (ys.map fun y => y.2 * y.1).sum ∧
    (RFrom.conv m.sumwt2 : K) = (ys.map fun y => y.2 * y.1 ^ 2).sum ∧
    (RFrom.conv m.sumw : K) = totalWeight ys ∧
    (RFrom.conv m.sumw2 : K) = (ys.map fun y => y.2 ^ 2).sum ∧
    (RFrom.conv m.count : K) = xs.length := by
  intro ys
  have := fillSeq_adds (μ := wmMeasure (T := T) (W := W) (O := K) (C := C) K) _
    (fun x : T × W => ((RFrom.conv x.2 * RFrom.conv x.1 : K), (RFrom.conv x.2 * RFrom.conv x.1 ^ 2 : K),
      (RFrom.conv x.2 : K), (RFrom.conv x.2 ^ 2 : K), (1 : K)))
    (fun x _ => weightedMean_adds (K := K) x.1 x.2) h
  rw [sum_pair, sum_pair, sum_pair, sum_pair, sum_map_one] at this
  have h0 : wmMeasure K (RDefault.dflt : WeightedMean T W K C) = 0 :=
    Prod.ext Faithful.zero (Prod.ext Faithful.zero (Prod.ext Faithful.zero (Prod.ext Faithful.zero Faithful.zero)))
  rw [h0, zero_add] at this
  simp only [ys, totalWeight, List.map_map]
  exact ⟨congrArg Prod.fst this, congrArg (fun x => x.2.1) this, congrArg (fun x => x.2.2.1) this,
    congrArg (fun x => x.2.2.2.1) this, congrArg (fun x => x.2.2.2.2) this⟩

attribute [local instance] exactNum in
/-- C42: after any sequence of weighted samples of non-zero total weight that did not panic: `get` is the weighted mean,
`num_samples` their number, `variance_of_samples` the weighted mean squared deviation, `variance_of_mean` that times the sum of
squared weights over the squared sum of weights; with non-negative weights the variances are not negative. (Output in exact
arithmetic.) -/
theorem C42_weighted_mean (xs : List (T × W)) {m : WeightedMean T W K C}
    (h : fillSeq (xs.map fun x => (Call.fillWithWeighted () x.1 x.2 : Call (WeightedMean T W K C) Unit)) RDefault.dflt =
      (m, none)) :
    let ys : List (K × K) := xs.map fun x => (RFrom.conv x.1, RFrom.conv x.2)
    totalWeight ys ≠ 0 →
    m.get = .ok (wavg ys) ∧
    (RFrom.conv m.numSamples : K) = xs.length ∧
    m.varianceOfSamples = .ok (wvar ys) ∧
    m.varianceOfMean = .ok (wvar ys * (ys.map fun y => y.2 ^ 2).sum / totalWeight ys ^ 2) ∧
    ((∀ y ∈ ys, 0 ≤ y.2) → 0 ≤ wvar ys) := by
  intro ys hw
  obtain ⟨e1, e2, e3, e4, e5⟩ := wmean_state xs h
  have hmean : m.mean = .ok (wavg ys) := by
    simp only [WeightedMean.mean, RNum.div, e1, e3]
    rw [if_neg hw]
    rfl
  have hvar : m.varianceOfSamples = .ok (wvar ys) := by
    simp only [WeightedMean.varianceOfSamples, hmean, bind, Except.bind, RNum.mul, RNum.div, RNum.sub, RNum.add, RNum.one, e1, e2, e3]
    rw [if_neg hw, wvar_eq ys hw]
  refine ⟨hmean, e5, hvar, ?_, wvar_nonneg ys⟩
  simp only [WeightedMean.varianceOfMean, hvar, bind, Except.bind, RNum.mul, RNum.div, e3, e4]
  rw [if_neg (mul_ne_zero hw hw), sq]
end

/-! ## Standard deviations, order of samples, unit weights -/

section
variable [Cfg] {T W C : Type} [RNum T] [RNum W] [RNum C]

/-- `Float::sqrt` in exact arithmetic -/
@[reducible] noncomputable def exactSqrt : RSqrt ℝ := ⟨Real.sqrt⟩

attribute [local instance] exactNum exactAbs exactSqrt

/-- C40: `standard_deviation` of the sums is the square root of the variance. -/
theorem C40_standard_deviation [RFrom T ℝ] (s : Sum T) (ws : WeightedSum T) :
    s.standardDeviation ℝ = Real.sqrt (RFrom.conv s.variance) ∧
    ws.standardDeviation ℝ = Real.sqrt (RFrom.conv ws.variance) := ⟨rfl, rfl⟩

/-- C41: `standard_deviation_of_samples` squared is the variance of the samples, `standard_error_of_mean` squared the variance
of the mean, and neither is negative. -/
theorem C41_standard_deviation [RFrom T ℝ] [RFrom C ℝ] [Faithful T ℝ] [Faithful C ℝ] (xs : List T) (hne : xs ≠ [])
    {m : Mean T ℝ C}
    (h : fillSeq (xs.map fun x => (Call.fillWith () x : Call (Mean T ℝ C) Unit)) RDefault.dflt = (m, none)) :
    let ys : List ℝ := xs.map fun x => RFrom.conv x
    ∃ sd se : ℝ, m.standardDeviationOfSamples = .ok sd ∧ m.standardErrorOfMean = .ok se ∧ 0 ≤ sd ∧ 0 ≤ se ∧
      sd ^ 2 = avg (ys.map fun y => (y - avg ys) ^ 2) ∧ se ^ 2 = sd ^ 2 / xs.length := by
  intro ys
  obtain ⟨-, -, h3, h4, h5⟩ := C41_mean (K := ℝ) xs hne h
  refine ⟨_, _, by simp only [Mean.standardDeviationOfSamples, h3]; rfl,
    by simp only [Mean.standardErrorOfMean, h4]; rfl, Real.sqrt_nonneg _, Real.sqrt_nonneg _, Real.sq_sqrt h5, ?_⟩
  rw [Real.sq_sqrt h5, Real.sq_sqrt]
  exact div_nonneg h5 (by positivity)

/-- C42: the same for weighted samples with non-negative weights: the standard deviation is a number whose square is the
variance. -/
theorem C42_standard_deviation [RFrom T ℝ] [RFrom W ℝ] [RFrom C ℝ] [Faithful T ℝ] [Faithful W ℝ] [Faithful C ℝ]
    [RMulBy T W] [FaithfulMul T W ℝ] (xs : List (T × W)) {m : WeightedMean T W ℝ C}
    (h : fillSeq (xs.map fun x => (Call.fillWithWeighted () x.1 x.2 : Call (WeightedMean T W ℝ C) Unit)) RDefault.dflt =
      (m, none)) :
    let ys : List (ℝ × ℝ) := xs.map fun x => (RFrom.conv x.1, RFrom.conv x.2)
    totalWeight ys ≠ 0 → (∀ y ∈ ys, 0 ≤ y.2) →
    ∃ sd se : ℝ, m.standardDeviationOfSamples = .ok sd ∧ m.standardErrorOfMean = .ok se ∧ 0 ≤ sd ∧ 0 ≤ se ∧
      sd ^ 2 = wvar ys ∧ se ^ 2 = sd ^ 2 * (ys.map fun y => y.2 ^ 2).sum / totalWeight ys ^ 2 := by
  intro ys hw hpos
  obtain ⟨-, -, h3, h4, h5⟩ := C42_weighted_mean (K := ℝ) xs h hw
  have h6 := h5 hpos
  refine ⟨_, _, by simp only [WeightedMean.standardDeviationOfSamples, h3]; rfl,
    by simp only [WeightedMean.standardErrorOfMean, h4]; rfl, Real.sqrt_nonneg _, Real.sqrt_nonneg _, Real.sq_sqrt h6, ?_⟩
  rw [Real.sq_sqrt h6, Real.sq_sqrt]
  apply div_nonneg _ (sq_nonneg _)
  apply mul_nonneg h6
  apply List.sum_nonneg
  intro x hx
  obtain ⟨w, _, rfl⟩ := List.mem_map.1 hx
  positivity
end

section
variable [Cfg] {T W C K : Type} [Field K] [LinearOrder K] [IsStrictOrderedRing K] [FloorRing K]
  [RNum T] [RNum W] [RNum C] [RFrom T K] [RFrom W K] [RFrom C K] [Faithful T K] [Faithful W K] [Faithful C K]

attribute [local instance] exactNum exactAbs

/-- C41: the results do not depend on the order of the samples. -/
theorem C41_order (xs xs' : List T) (hp : xs.Perm xs') (hne : xs ≠ []) {m m' : Mean T K C}
    (h : fillSeq (xs.map fun x => (Call.fillWith () x : Call (Mean T K C) Unit)) RDefault.dflt = (m, none))
    (h' : fillSeq (xs'.map fun x => (Call.fillWith () x : Call (Mean T K C) Unit)) RDefault.dflt = (m', none)) :
    m.get = m'.get ∧ m.varianceOfSamples = m'.varianceOfSamples ∧ m.varianceOfMean = m'.varianceOfMean := by
  have hne' : xs' ≠ [] := by rintro rfl; exact hne hp.eq_nil
  obtain ⟨a1, -, a2, a3, -⟩ := C41_mean (K := K) xs hne h
  obtain ⟨b1, -, b2, b3, -⟩ := C41_mean (K := K) xs' hne' h'
  have hy := hp.map fun x => (RFrom.conv x : K)
  have ha : avg (xs.map fun x => (RFrom.conv x : K)) = avg (xs'.map fun x => (RFrom.conv x : K)) := by
    unfold avg; rw [hy.sum_eq, hy.length_eq]
  have hv : avg ((xs.map fun x => (RFrom.conv x : K)).map fun y => (y - avg (xs.map fun x => (RFrom.conv x : K))) ^ 2) =
      avg ((xs'.map fun x => (RFrom.conv x : K)).map fun y => (y - avg (xs'.map fun x => (RFrom.conv x : K))) ^ 2) := by
    rw [ha]
    have := hy.map fun y => (y - avg (xs'.map fun x => (RFrom.conv x : K))) ^ 2
    unfold avg at this ⊢
    rw [this.sum_eq, this.length_eq]
  rw [a1, a2, a3, b1, b2, b3, hv, ha, hp.length_eq]
  exact ⟨rfl, rfl, rfl⟩

/-- C42: with unit weights the weighted mean and variances are those of `Mean`. -/
theorem C42_unit_weights [RMulBy T W] [FaithfulMul T W K] (xs : List T) (hne : xs ≠ []) {m : Mean T K C}
    {wm : WeightedMean T W K C}
    (h : fillSeq (xs.map fun x => (Call.fillWith () x : Call (Mean T K C) Unit)) RDefault.dflt = (m, none))
    (h' : fillSeq ((xs.map fun x => (x, (one : W))).map
      fun x => (Call.fillWithWeighted () x.1 x.2 : Call (WeightedMean T W K C) Unit)) RDefault.dflt = (wm, none)) :
    wm.get = m.get ∧ wm.varianceOfSamples = m.varianceOfSamples ∧ wm.varianceOfMean = m.varianceOfMean := by
  obtain ⟨a1, -, a2, a3, -⟩ := C41_mean (K := K) xs hne h
  have hys : (xs.map fun x => (x, (one : W))).map (fun x => ((RFrom.conv x.1 : K), (RFrom.conv x.2 : K))) =
      xs.map fun x => ((RFrom.conv x : K), (1 : K)) := by
    rw [List.map_map]; congr 1; funext x; simp [Faithful.one]
  have hb := C42_weighted_mean (K := K) _ h'
  rw [hys] at hb
  have hw : totalWeight (xs.map fun x => ((RFrom.conv x : K), (1 : K))) = xs.length := by
    simp [totalWeight, List.map_map, Function.comp_def]
  have hn : (xs.length : K) ≠ 0 := by
    have : xs.length ≠ 0 := by simpa using hne
    exact_mod_cast this
  obtain ⟨b1, -, b2, b3, -⟩ := hb (by rw [hw]; exact hn)
  have e1 : wavg (xs.map fun x => ((RFrom.conv x : K), (1 : K))) = avg (xs.map fun x => (RFrom.conv x : K)) := by
    simp [wavg, hw, avg, List.map_map, Function.comp_def]
  have e2 : wvar (xs.map fun x => ((RFrom.conv x : K), (1 : K))) =
      avg ((xs.map fun x => (RFrom.conv x : K)).map fun y => (y - avg (xs.map fun x => (RFrom.conv x : K))) ^ 2) := by
    simp only [wvar, hw, e1, List.map_map, Function.comp_def, one_mul]
    simp [avg]
  rw [a1, a2, a3, b1, b2, b3, e1, e2, hw]
  refine ⟨rfl, rfl, ?_⟩
  simp only [List.map_map, Function.comp_def, one_pow, sum_map_one]
  congr 1
  field_simp
end

/-! ## No panic with exact sums and few enough samples; what happens with more -/

section
variable [cfg : Cfg] {K : Type} [Field K] [LinearOrder K] [IsStrictOrderedRing K] [FloorRing K] {τ : IntTy}
attribute [local instance] exactNum

theorem mean_seq_ok (xs : List K) (m : Mean K K (MInt τ)) (hn : m.count.val + xs.length ≤ τ.max) :
    ∃ m', fillSeq (xs.map fun x => (Call.fillWith () x : Call (Mean K K (MInt τ)) Unit)) m = (m', none) ∧
      m'.count.val = m.count.val + xs.length := by
  induction xs generalizing m with
  | nil => exact ⟨m, rfl, by simp⟩
  | cons x xs ih =>
    simp only [List.length_cons, Nat.cast_add, Nat.cast_one] at hn
    have hmin := m.count.min_le
    have hc : MInt.arith (τ := τ) (m.count.val + (@RNum.one (MInt τ) cfg MInt.instRNum).val) = .ok ⟨m.count.val + 1, by omega, by omega⟩ := by
      rw [MInt.one_val]; exact MInt.arith_ok (by omega) (by omega)
    have step : (Call.fillWith () x : Call (Mean K K (MInt τ)) Unit).on m =
        ({ sumw := m.sumw + x, sumw2 := m.sumw2 + x * x, count := ⟨m.count.val + 1, by omega, by omega⟩ }, none) := by
      simp only [Call.on, FillWith.fillWith, Upd.andThen, Upd.onField, Upd.withVal, addAssign, Upd.store, hc,
        RNum.add, RNum.mul]
    obtain ⟨m', h1, h2⟩ := ih { sumw := m.sumw + x, sumw2 := m.sumw2 + x * x, count := ⟨m.count.val + 1, by omega, by omega⟩ }
      (by simp only; omega)
    refine ⟨m', ?_, by simp only at h2; rw [h2, List.length_cons]; push_cast; omega⟩
    simp only [List.map_cons, fillSeq, step]
    exact h1

/-- C41: with exact sums no sequence of at most `MAX` samples panics, where `MAX` is the largest count (`2^32 - 1` by default). -/
theorem C41_no_panic (xs : List K) (hn : (xs.length : Int) ≤ τ.max) :
    ∃ m : Mean K K (MInt τ), fillSeq (xs.map fun x => (Call.fillWith () x : Call (Mean K K (MInt τ)) Unit)) RDefault.dflt = (m, none) := by
  obtain ⟨m, h, _⟩ := mean_seq_ok (τ := τ) xs RDefault.dflt (by
    show (0 : Int) + xs.length ≤ τ.max
    omega)
  exact ⟨m, h⟩

/-- C41: one sample more than the count type can hold panics in a build with overflow checks, after the sums were already
updated; in a build without, the count wraps around (to `MIN`) and the mean is no longer that of the samples. -/
theorem C41_count_overflow (m : Mean K K (MInt τ)) (hm : m.count.val = τ.max) (x : K) :
    (Cfg.checked = true → (Call.fillWith () x : Call (Mean K K (MInt τ)) Unit).on m =
      ({ m with sumw := m.sumw + x, sumw2 := m.sumw2 + x * x }, some .overflow)) ∧
    (Cfg.checked = false → ∃ m', (Call.fillWith () x : Call (Mean K K (MInt τ)) Unit).on m = (m', none) ∧
      m'.count.val = τ.min ∧ m'.sumw = m.sumw + x) := by
  constructor
  · intro hc
    have hadd : MInt.arith (τ := τ) (m.count.val + (@RNum.one (MInt τ) cfg MInt.instRNum).val) = .error .overflow := by
      rw [MInt.one_val, MInt.arith, dif_neg (by omega), if_pos hc]
    simp only [Call.on, FillWith.fillWith, Upd.andThen, Upd.onField, Upd.withVal, addAssign, Upd.store, hadd,
        RNum.add, RNum.mul]
  · intro hc
    have hadd : MInt.arith (τ := τ) (m.count.val + (@RNum.one (MInt τ) cfg MInt.instRNum).val) = .ok (MInt.wrapping (m.count.val + 1)) := by
      rw [MInt.one_val, MInt.arith, dif_neg (by omega), if_neg (by simp [hc])]
    refine ⟨_, by
      simp only [Call.on, FillWith.fillWith, Upd.andThen, Upd.onField, Upd.withVal, addAssign, Upd.store, hadd,
        RNum.add, RNum.mul]; rfl, ?_, rfl⟩
    have hs := τ.size_eq
    simp only [MInt.wrapping, MInt.wrapVal, hm]
    rw [show τ.max + 1 - τ.min = 2 ^ τ.bits by omega, Int.emod_self]
    omega

/-- C41: the mean of no samples: for exact (and integer) outputs a division by zero. -/
theorem C41_no_samples [RFrom (MInt τ) K] [Faithful (MInt τ) K] :
    letI := exactFrom K
    (RDefault.dflt : Mean K K (MInt τ)).get = .error .divZero := by
  letI := exactFrom K
  have : (RFrom.conv (RDefault.dflt : Mean K K (MInt τ)).count : K) = 0 := Faithful.zero
  simp only [Mean.get, Mean.mean, RNum.div, this, if_true]
end

/-! ## The hypotheses are met; and floating point differs -/

section
attribute [local instance] dbg64

/-- a `Mean` and a `WeightedMean` of rational samples with the default `u32` count -/
example : letI := exactNum ℚ
    ∃ (m : Mean ℚ ℚ (MInt .u32)), fillSeq ([1, 2, 6].map fun x => (Call.fillWith () (x : ℚ) : Call (Mean ℚ ℚ (MInt .u32)) Unit))
      RDefault.dflt = (m, none) ∧ m.sumw = 9 ∧ m.sumw2 = 41 ∧ m.count = MInt.lit 3 := by
  letI := exactNum ℚ
  exact ⟨_, rfl, by decide +kernel, by decide +kernel, by decide +kernel⟩

example : letI := exactNum ℚ
    ∃ (m : WeightedMean ℚ ℚ ℚ (MInt .u32)), fillSeq ([(1, 2), (4, 1)].map
      fun x : ℚ × ℚ => (Call.fillWithWeighted () x.1 x.2 : Call (WeightedMean ℚ ℚ ℚ (MInt .u32)) Unit))
      RDefault.dflt = (m, none) ∧ m.sumwt = 6 ∧ m.sumwt2 = 18 ∧ m.sumw = 3 ∧ m.sumw2 = 5 := by
  letI := exactNum ℚ
  exact ⟨_, rfl, by decide +kernel, by decide +kernel, by decide +kernel, by decide +kernel⟩

/-- integer sums in a checked build are faithful too -/
example : @Faithful (MInt .i32) ℚ _ _ _ (intFrom .i32 ℚ) := int_faithful _ _ rfl

example : ∃ s : WeightedSum (MInt .i32), fillSeq ([MInt.lit 2, MInt.lit (-3)].map
    fun w : MInt .i32 => (Call.fillWith () w : Call (WeightedSum (MInt .i32)) Unit)) WeightedSum.new = (s, none) ∧
    s.get = MInt.lit (-1) ∧ s.variance = MInt.lit 13 := ⟨_, rfl, by decide, by decide⟩

/-- C42 fails for floating-point output: a single sample 1.7 of weight 3 has a negative variance, so its standard deviation is
not a number. -/
theorem C42_counterexample_float :
    letI := exactFrom F64
    ∃ (m : WeightedMean F64 F64 F64 (MInt .u32)) (v : F64),
      fillSeq [(Call.fillWithWeighted () (f64 1.7) (f64 3) : Call (WeightedMean F64 F64 F64 (MInt .u32)) Unit)] RDefault.dflt =
        (m, none) ∧
      m.varianceOfSamples = .ok v ∧ POrd.lt v (f64 0) = true := by
  letI := exactFrom F64
  refine ⟨_, f64 (-(1 / 2 ^ 50)), rfl, ?_, ?_⟩ <;> decide +kernel
end
end NdHist
