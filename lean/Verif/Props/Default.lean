import Verif.Model.Default
import Verif.Model.Eq
import Verif.Props.Fill
import Verif.Props.UniformFloatBins
/-!
# C48: `Default` axes and histograms
-/
namespace NdHist
open POrd RNum
section
variable [cfg : Cfg]

/-- no bin of the default uniform axis can be missed: it only has underflow and overflow -/
private theorem dflt_lawful_of {T : Type} [RNum T] {u : Uniform T} (h0 : u.num = 0)
    (hidx : ∀ c i, u.index c = .ok (some i) → i < 2) : LawfulAxis u 2 := by
  have hu : 2 ^ 16 ≤ usizeSize := Nat.pow_le_pow_right (by norm_num) cfg.bits_ge
  have h1 : uadd u.num 1 = .ok 1 := by rw [h0]; exact uadd_ok (by omega)
  refine ⟨?_, by omega, hidx, ?_⟩
  · show u.numBins = _
    rw [Uniform.numBins, h0]; exact uadd_ok (by omega)
  · intro i hi
    show ∃ b, u.bin i = _
    obtain rfl | rfl : i = 0 ∨ i = 1 := by omega
    · exact ⟨_, rfl⟩
    · refine ⟨.overflow u.high, ?_⟩
      unfold Uniform.bin
      rw [h1]; rfl

/-- C48: the default uniform axis of every integer type has the two bins "below 0" and "from 0 on". -/
theorem C48_uniform_int (τ : IntTy) :
    LawfulAxis (RDefault.dflt : Uniform (MInt τ)) 2 ∧
    ∀ c : MInt τ, (RDefault.dflt : Uniform (MInt τ)).index c = .ok (some (if c.val < 0 then 0 else 1)) := by
  have hu : 2 ^ 16 ≤ usizeSize := Nat.pow_le_pow_right (by norm_num) cfg.bits_ge
  have key : ∀ c : MInt τ, (RDefault.dflt : Uniform (MInt τ)).index c = .ok (some (if c.val < 0 then 0 else 1)) := by
    intro c
    have e1 : (RDefault.dflt : Uniform (MInt τ)).low.val = 0 := rfl
    have e2 : (RDefault.dflt : Uniform (MInt τ)).high.val = 0 := rfl
    have e3 : uadd (RDefault.dflt : Uniform (MInt τ)).num 1 = .ok 1 := uadd_ok (by show 0 + 1 < _; omega)
    unfold Uniform.index
    simp only [MInt.lt_iff, MInt.ge_iff, e1, e2, e3, decide_eq_true_eq]
    by_cases h : c.val < 0
    · simp [h, pure, Except.pure]
    · have h' : 0 ≤ c.val := by omega
      simp [h, h', pure, Except.pure, bind, Except.bind]
  refine ⟨dflt_lawful_of rfl fun c i h => ?_, key⟩
  rw [key] at h
  simp only [Except.ok.injEq, Option.some.injEq] at h
  split at h <;> omega

/-- C48: the default uniform axis of every float type has the two bins "below 0" and "from 0 on"; NaN is put into the second. -/
theorem C48_uniform_float (F : FFmt) :
    LawfulAxis (RDefault.dflt : Uniform (Flt F)) 2 ∧
    ∀ c : Flt F, (RDefault.dflt : Uniform (Flt F)).index c = .ok (some (if POrd.lt c (Flt.zero false) then 0 else 1)) := by
  have hu : 2 ^ 16 ≤ usizeSize := Nat.pow_le_pow_right (by norm_num) cfg.bits_ge
  have key : ∀ c : Flt F, (RDefault.dflt : Uniform (Flt F)).index c = .ok (some (if POrd.lt c (Flt.zero false) then 0 else 1)) := by
    intro c
    have e1 : (RDefault.dflt : Uniform (Flt F)).low = Flt.zero false := rfl
    have e2 : (RDefault.dflt : Uniform (Flt F)).high = Flt.zero false := rfl
    have e3 : uadd (RDefault.dflt : Uniform (Flt F)).num 1 = .ok 1 := uadd_ok (by show 0 + 1 < _; omega)
    unfold Uniform.index
    rw [e1, e2, e3]
    by_cases h : POrd.lt c (Flt.zero false) = true
    · simp [h, pure, Except.pure]
    · by_cases h2 : POrd.ge c (Flt.zero false) = true
      · simp [h, h2, pure, Except.pure, bind, Except.bind]
      · have hc : c = .nan := by
          rcases c with _ | s | ⟨s, a, ha⟩
          · rfl
          · cases s <;> simp [POrd.lt, POrd.ge, POrd.pcmp, Flt.pcmp, Flt.zero] at h h2
          · exfalso
            simp only [POrd.lt, POrd.ge, POrd.pcmp, Flt.pcmp, Flt.zero] at h h2
            generalize compare (Flt.sval s a) (Flt.sval false 0) = o at h h2
            cases o <;> simp at h h2
        subst hc
        simp only [h, h2, if_false, Bool.false_eq_true]
        show (uadd 0 1).bind _ = _
        rw [uadd_ok (by omega)]; rfl
  refine ⟨dflt_lawful_of rfl fun c i h => ?_, key⟩
  rw [key] at h
  simp only [Except.ok.injEq, Option.some.injEq] at h
  split at h <;> omega

/-- C48: the default uniform axes without flow bins have no bins at all. -/
theorem C48_uniform_noflow_int (τ : IntTy) :
    LawfulAxis (RDefault.dflt : UniformNoFlow (MInt τ)) 0 ∧ LawfulAxis (RDefault.dflt : UniformCyclic (MInt τ)) 0 :=
  ⟨C25_lawful_uniform_noflow (C48_uniform_int τ).1, C25_lawful_uniform_cyclic (C48_uniform_int τ).1⟩

theorem C48_uniform_noflow_float (F : FFmt) :
    LawfulAxis (RDefault.dflt : UniformNoFlow (Flt F)) 0 ∧ LawfulAxis (RDefault.dflt : UniformCyclic (Flt F)) 0 :=
  ⟨C25_lawful_uniform_noflow (C48_uniform_float F).1, C25_lawful_uniform_cyclic (C48_uniform_float F).1⟩

/-- C48 needs care (1): looking anything up on the default cyclic axis of an integer type divides by zero. -/
theorem C48_cyclic_int_panics (τ : IntTy) (c : MInt τ) :
    (RDefault.dflt : UniformCyclic (MInt τ)).index c = .error .divZero := by
  have h1 : ∀ x : MInt τ, @RNum.sub (MInt τ) cfg MInt.instRNum x (@RNum.zero (MInt τ) cfg MInt.instRNum) = .ok x := by
    intro x
    show MInt.arith (x.val - 0) = _
    simp [MInt.arith, x.min_le, x.le_max]
  show (wrapAround (@RNum.zero (MInt τ) cfg MInt.instRNum) (@RNum.zero (MInt τ) cfg MInt.instRNum) c).bind _ = _
  unfold wrapAround
  rw [h1, h1]
  rfl

/-- C48: default category axes are the axes without any category. -/
theorem C48_category {T : Type} [DecidableEq T] :
    (RDefault.dflt : Category T) = Category.new [] ∧ LawfulAxis (RDefault.dflt : Category T) 1 ∧
    (RDefault.dflt : CategoryNoFlow T) = CategoryNoFlow.new [] ∧ LawfulAxis (RDefault.dflt : CategoryNoFlow T) 0 := by
  have hu : 2 ^ 16 ≤ usizeSize := Nat.pow_le_pow_right (by norm_num) cfg.bits_ge
  exact ⟨rfl, C25_lawful_category [] (by simp; omega), rfl, C25_lawful_category_noflow [] (by simp; omega)⟩

/-- C48: on a lawful default axis, the default sparse histogram is the new (empty) one. -/
theorem C48_hash {A V : Type} [Axis A] [RDefault A] :
    (RDefault.dflt : HashHistogram A V) = HashHistogram.new RDefault.dflt := rfl

/-- C48 is false (1): the default variable axes have no edges. `index` returns bin 0 and `num_bins` says there is one bin, but
asking for that bin, and for the range, panics. -/
theorem C48_counterexample_variable {T : Type} [POrd T] [StdLib] (c : T) :
    (RDefault.dflt : Variable T).numBins = .ok 1 ∧
    (∃ r, (RDefault.dflt : Variable T).index c = .ok (some r) ∧ r = 0) ∧
    (RDefault.dflt : Variable T).bin 0 = .error .expectNone ∧
    (RDefault.dflt : Variable T).low = .error .expectNone ∧ (RDefault.dflt : Variable T).high = .error .expectNone := by
  have hu : 2 ^ 16 ≤ usizeSize := Nat.pow_le_pow_right (by norm_num) cfg.bits_ge
  refine ⟨uadd_ok (by show 0 + 1 < _; omega), ?_, rfl, rfl, rfl⟩
  have hs : SearchSorted 0 (Variable.probeCmp (RDefault.dflt : Variable T) c) := fun i j _ h => absurd h (by omega)
  have he : (RDefault.dflt : Variable T).binEdges.length = 0 := rfl
  unfold Variable.index
  rw [he]
  cases hr : StdLib.search.run 0 (Variable.probeCmp (RDefault.dflt : Variable T) c) with
  | ok i => exact absurd (StdLib.search.ok_spec _ _ _ hs hr).1 (by omega)
  | err i => exact ⟨i, rfl, by have := (StdLib.search.err_spec _ _ _ hs hr).1; omega⟩

/-- C48 is false (2): counting the bins of the default variable axes without flow bins underflows: a panic in a checked build,
`usize::MAX` bins in a release build. -/
theorem C48_counterexample_variable_noflow {T : Type} [POrd T] [StdLib] :
    (RDefault.dflt : VariableNoFlow T).numBins = if Cfg.checked then .error .overflow else .ok (usizeSize - 1) := by
  have hu : 2 ^ 16 ≤ usizeSize := Nat.pow_le_pow_right (by norm_num) cfg.bits_ge
  have h1 : (RDefault.dflt : VariableNoFlow T).axis.numBins = .ok 1 := uadd_ok (by show 0 + 1 < _; omega)
  unfold VariableNoFlow.numBins
  rw [h1]
  show usub 1 2 = _
  unfold usub
  rw [if_neg (by omega)]
  split
  · rfl
  · congr 1
    rw [Nat.mod_eq_of_lt (by omega)]; omega

/-- C48 is false (3): the default `VariableNoFlow` has no coordinate in range although it claims bins, the default `VariableCyclic` has the same number of bins and panics on every coordinate. -/
theorem C48_counterexample_variable_cyclic {T : Type} [RNum T] [StdLib] (c : T) :
    (RDefault.dflt : VariableNoFlow T).index c = .ok none ∧
    (RDefault.dflt : VariableCyclic T).numBins = (RDefault.dflt : VariableNoFlow T).numBins ∧
    (RDefault.dflt : VariableCyclic T).index c = .error .expectNone ∧
    (RDefault.dflt : VariableCyclic T).low = .error .expectNone ∧ (RDefault.dflt : VariableCyclic T).high = .error .expectNone := by
  obtain ⟨-, ⟨r, h1, rfl⟩, -, h3, h4⟩ := C48_counterexample_variable (T := T) c
  refine ⟨?_, rfl, ?_, h3, h4⟩
  · show VariableNoFlow.index _ c = _
    unfold VariableNoFlow.index
    have h1' : Variable.index (RDefault.dflt : VariableNoFlow T).axis c = .ok (some 0) := h1
    rw [h1']
    rfl
  · unfold VariableCyclic.index
    have h4' : VariableNoFlow.high (RDefault.dflt : VariableCyclic T).axis = .error .expectNone := h4
    rw [h4']
    rfl

/-- C48 is false (3): in a default tuple of two axes only the first component selects the bin: coordinates in different
bins are mixed up. -/
theorem C48_counterexample_tuple {t₀ t₁ : AxTy} [RDefault t₀.A] [RDefault t₁.A] (c₀ : Axis.Coordinate t₀.A) (c₁ : Axis.Coordinate t₁.A)
    {i₀ i₁ : Nat} (h₀ : Axis.index (RDefault.dflt : t₀.A) c₀ = .ok (some i₀)) (h₁ : Axis.index (RDefault.dflt : t₁.A) c₁ = .ok (some i₁)) :
    (RDefault.dflt : AxesTuple t₀ t₁ []).index (c₀, c₁, ()) = .ok (some i₀) := by
  have : (RDefault.dflt : AxesTuple t₀ t₁ []).axes.indices (c₀, c₁, ()) = .ok (some [i₀, i₁]) := by
    show Tup.indices (ts := [t₀, t₁]) (RDefault.dflt, RDefault.dflt, ()) (c₀, c₁, ()) = _
    simp only [Tup.indices, h₀, h₁]; rfl
  unfold AxesTuple.index
  rw [this]; rfl

/-- C48 is false (3), any number of axes: the bin of a coordinate on default axes is its bin on the first axis. -/
theorem C48_counterexample_tuple_any {t₀ t₁ : AxTy} {ts : List AxTy} [RDefault (Tup (t₀ :: t₁ :: ts))] (c : Coords (t₀ :: t₁ :: ts))
    {i : Nat} {is : List Nat} (h : (RDefault.dflt : Tup (t₀ :: t₁ :: ts)).indices c = .ok (some (i :: is))) :
    (RDefault.dflt : AxesTuple t₀ t₁ ts).index c = .ok (some i) := by
  unfold AxesTuple.index
  rw [show (RDefault.dflt : AxesTuple t₀ t₁ ts).axes.indices c = _ from h]; rfl

/-- C48, one axis: the default axes look everything up on the default axis, and are lawful if it is. -/
theorem C48_tuple1 {X : Type} [Axis X] [RDefault X] :
    (∀ c, Axis.index (RDefault.dflt : AxesTuple1 X) c = Axis.index (RDefault.dflt : X) c) ∧ Axis.numBins (RDefault.dflt : AxesTuple1 X) = Axis.numBins (RDefault.dflt : X) ∧
    (∀ i, Axis.bin (RDefault.dflt : AxesTuple1 X) i = Axis.bin (RDefault.dflt : X) i) ∧ ∀ n, LawfulAxis (RDefault.dflt : X) n → LawfulAxis (RDefault.dflt : AxesTuple1 X) n :=
  ⟨fun _ => rfl, rfl, fun _ => rfl, fun _ h => ⟨h.numBins, h.fits, h.index_lt, h.bin_some⟩⟩

/-- C48 is false (5): the default one-axis tuple is not equal to the one made of the default axis, whatever the axis, so that operations between histograms with these axes return an error (and `op=` panics). -/
theorem C48_counterexample_tuple1_eq {X V : Type} [Axis X] [RDefault X] [PEq X] [ROps V] [RDefault V] {a : AxesTuple1 X} (ha : AxesTuple1.fromTuple RDefault.dflt = .ok a) (o : Op) :
    PEq.peq (RDefault.dflt : AxesTuple1 X) a = false ∧
    ∀ ko, (RDefault.dflt : HashHistogram (AxesTuple1 X) V).opBorrow o (HashHistogram.new a) ko = .ok (.error .mk) := by
  have e : PEq.peq (RDefault.dflt : AxesTuple1 X) a = false := by
    unfold AxesTuple1.fromTuple at ha
    obtain ⟨n, -, ha⟩ := Res.bind_eq_ok.1 ha
    cases ha
    show (_ && decide (([] : List Nat) = [n])) = false
    simp
  refine ⟨e, fun ko => ?_⟩
  unfold HashHistogram.opBorrow
  rw [if_pos (show PEq.peq (RDefault.dflt : HashHistogram (AxesTuple1 X) V).axes (HashHistogram.new a : HashHistogram (AxesTuple1 X) V).axes = false from e)]
  rfl

/-- C48 is false (4): a default dense histogram holds no values although its axes may have bins: fills are silently ignored, nothing
can be read and iterating panics. -/
theorem C48_counterexample_vec {A V : Type} [Axis A] [RDefault A] {n : Nat} (hl : LawfulAxis (RDefault.dflt : A) n) (hn : 0 < n)
    (calls : List (Call V (Axis.Coordinate A))) :
    (RDefault.dflt : VecHistogram A V).callAllCaught calls = RDefault.dflt ∧
    (∀ i, (RDefault.dflt : VecHistogram A V).valueAtIndex i = none) ∧
    (RDefault.dflt : VecHistogram A V).iter = .error .expectNone := by
  have hv : (RDefault.dflt : VecHistogram A V).values = [] := rfl
  have ha : (RDefault.dflt : VecHistogram A V).axes = RDefault.dflt := rfl
  refine ⟨?_, fun i => rfl, ?_⟩
  · have step : ∀ call, ((RDefault.dflt : VecHistogram A V).call call).1 = RDefault.dflt := by
      intro call
      have : ∀ c f, (RDefault.dflt : VecHistogram A V).valueMut c f = .ok none ∨ ∃ p, (RDefault.dflt : VecHistogram A V).valueMut c f = .error p := by
        intro c f
        unfold VecHistogram.valueMut
        rcases Axis.index (RDefault.dflt : VecHistogram A V).axes c with p | _ | i
        · exact .inr ⟨p, rfl⟩
        · exact .inl rfl
        · exact .inl rfl
      cases call with
      | fill c =>
        show ((RDefault.dflt : VecHistogram A V).fill c).1 = _
        unfold VecHistogram.fill
        rcases this c Fill.fill with h | ⟨p, h⟩ <;> rw [h]
      | fillWith c d =>
        show ((RDefault.dflt : VecHistogram A V).fillWith c d).1 = _
        unfold VecHistogram.fillWith
        rcases this c (FillWith.fillWith d) with h | ⟨p, h⟩ <;> rw [h]
      | fillWithWeighted c d w =>
        show ((RDefault.dflt : VecHistogram A V).fillWithWeighted c d w).1 = _
        unfold VecHistogram.fillWithWeighted
        rcases this c (FillWithWeighted.fillWithWeighted d w) with h | ⟨p, h⟩ <;> rw [h]
    unfold VecHistogram.callAllCaught
    induction calls with
    | nil => rfl
    | cons c cs ih => rw [List.foldl_cons, step]; exact ih
  · obtain ⟨_, bs, hlen, _, h3, _⟩ := C25_axis_iteration hl
    obtain ⟨m, rfl⟩ : ∃ m, n = m + 1 := ⟨n - 1, by omega⟩
    obtain ⟨b, bs, rfl⟩ : ∃ b bs', bs = b :: bs' := by
      cases bs with
      | nil => simp at hlen
      | cons b bs => exact ⟨b, bs, rfl⟩
    unfold VecHistogram.iter
    rw [ha, h3, List.range_succ_eq_map]
    rfl

end

section
attribute [local instance] dbg64
/-- the hypotheses of the counterexamples are met: a default histogram on the default axis of `i32` -/
example : LawfulAxis (RDefault.dflt : Uniform (MInt .i32)) 2 := (C48_uniform_int .i32).1
example : Axis.index (RDefault.dflt : Uniform (MInt .i32)) (MInt.lit (-3)) = .ok (some 0) := by decide
example : Axis.index (RDefault.dflt : Uniform (MInt .i32)) (MInt.lit 5) = .ok (some 1) := by decide
/-- two points in different bins of the second axis fall into the same bin of the default tuple -/
example : (RDefault.dflt : AxesTuple ⟨Uniform (MInt .i32), inferInstance⟩ ⟨Uniform (MInt .i32), inferInstance⟩ []).index (MInt.lit 5, MInt.lit 5, ()) =
    (RDefault.dflt : AxesTuple ⟨Uniform (MInt .i32), inferInstance⟩ ⟨Uniform (MInt .i32), inferInstance⟩ []).index (MInt.lit 5, MInt.lit (-5), ()) := by
  decide
end
end NdHist
