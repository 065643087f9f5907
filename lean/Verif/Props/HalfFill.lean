import Verif.SpecHalf
import Verif.Props.Value
import Verif.Props.Access
/-!
# C64: a fill that panics half-way
-/
namespace NdHist
open RNum

/-! ## tools -/

theorem Stops.of_store {σ : Type} {f : σ → Res σ} {s : σ} : Stops [f] s (Upd.store f s) := by
  unfold Upd.store
  cases h : f s with
  | ok s' => exact .step h .done
  | error p => exact .panic h

theorem Stops.append {σ : Type} {fs gs : List (σ → Res σ)} {u v : Upd σ} {s : σ} (h : Stops fs s (u s)) (h' : ∀ t, Stops gs t (v t)) :
    Stops (fs ++ gs) s (Upd.andThen u v s) := by
  unfold Upd.andThen
  generalize u s = r at h
  induction h with
  | done => exact h' _
  | panic h => exact .panic h
  | step h _ ih => exact .step h ih

theorem Stops.assign {σ τ : Type} {get : σ → τ} {set : σ → τ → σ} {g : τ → Res τ} {s : σ} (hset : ∀ s, set s (get s) = s) :
    Stops [fun s => do let a ← g (get s); return set s a] s (Upd.onField get set (Upd.store g) s) := by
  unfold Upd.onField Upd.store
  cases h : g (get s) with
  | ok a => exact .step (by simp only [h]; rfl) .done
  | error p =>
    simp only [hset]
    exact .panic (by simp only [h]; rfl)

theorem Stops.assignVal {σ τ α : Type} {get : σ → τ} {set : σ → τ → σ} {r : Res α} {g : α → τ → Res τ} {s : σ} (hset : ∀ s, set s (get s) = s) :
    Stops [fun s => do let x ← r; let a ← g x (get s); return set s a] s (Upd.withVal r (fun x => Upd.onField get set (Upd.store (g x))) s) := by
  unfold Upd.withVal
  cases r with
  | ok x => exact Stops.assign hset
  | error p => exact .panic rfl

section
variable [Cfg] {T W C O : Type} [RNum T] [RNum W] [RNum C]

/-! ## the value types -/

/-- C64: a fill of a number that panics leaves it as it was. -/
theorem C64_number (x d : T) :
    Stops [fun s => add s one] x (Fill.fill x) ∧ Stops [fun s => add s d] x (FillWith.fillWith d x) :=
  ⟨.of_store, .of_store⟩

/-- C64: a fill of a `Sum` that panics leaves it as it was. -/
theorem C64_sum (x : Sum T) (d : T) :
    Stops [fun s => do let a ← add s.sum one; return ⟨a⟩] x (Fill.fill x) ∧
    Stops [fun s => do let a ← add s.sum d; return ⟨a⟩] x (FillWith.fillWith d x) :=
  ⟨.assign (get := Sum.sum) (set := fun _ x => ⟨x⟩) (g := fun s => add s one) fun _ => rfl,
   .assign (get := Sum.sum) (set := fun _ x => ⟨x⟩) (g := fun s => add s d) fun _ => rfl⟩

/-- C64: a fill of a `WeightedSum` adds to the sum of weights, then to the sum of their squares; a panic keeps what was done. -/
theorem C64_weighted_sum (x : WeightedSum T) (d : T) :
    Stops [fun s => do let a ← add s.sumw one; return { s with sumw := a },
      fun s => do let a ← add s.sumw2 one; return { s with sumw2 := a }] x (Fill.fill x) ∧
    Stops [fun s => do let a ← add s.sumw d; return { s with sumw := a },
      fun s => do let q ← mul d d; let a ← add s.sumw2 q; return { s with sumw2 := a }] x (FillWith.fillWith d x) :=
  ⟨.append (fs := [_]) (gs := [_]) (.assign (g := fun s => add s one) fun _ => rfl) fun _ => .assign (g := fun s => add s one) fun _ => rfl,
   .append (fs := [_]) (gs := [_]) (.assign (g := fun s => add s d) fun _ => rfl) fun _ => .assignVal (g := fun q s => add s q) fun _ => rfl⟩

/-- C64: a fill of a `Mean` adds to the sum, then to the sum of squares, then to the number of samples; a panic keeps what was done. -/
theorem C64_mean (x : Mean T O C) (d : T) :
    Stops [fun s => do let a ← add s.sumw d; return { s with sumw := a },
      fun s => do let q ← mul d d; let a ← add s.sumw2 q; return { s with sumw2 := a },
      fun s => do let a ← add s.count one; return { s with count := a }] x (FillWith.fillWith d x) :=
  .append (fs := [_]) (gs := [_, _]) (.assign (g := fun s => add s d) fun _ => rfl) fun _ =>
    .append (fs := [_]) (gs := [_]) (.assignVal (g := fun q s => add s q) fun _ => rfl) fun _ => .assign (g := fun s => add s one) fun _ => rfl

/-- C64: a fill of a `WeightedMean` adds to its five sums in this order; a panic keeps what was done. -/
theorem C64_weighted_mean [RMulBy T W] (x : WeightedMean T W O C) (d : T) (w : W) :
    Stops [fun s => do let q ← RMulBy.mulBy d w; let a ← add s.sumwt q; return { s with sumwt := a },
      fun s => do let q ← (do let v2 ← mul d d; RMulBy.mulBy v2 w); let a ← add s.sumwt2 q; return { s with sumwt2 := a },
      fun s => do let a ← add s.sumw w; return { s with sumw := a },
      fun s => do let q ← mul w w; let a ← add s.sumw2 q; return { s with sumw2 := a },
      fun s => do let a ← add s.count one; return { s with count := a }] x (FillWithWeighted.fillWithWeighted d w x) :=
  .append (fs := [_]) (gs := [_, _, _, _]) (.assignVal (g := fun q s => add s q) fun _ => rfl) fun _ =>
    .append (fs := [_]) (gs := [_, _, _]) (.assignVal (g := fun q s => add s q) fun _ => rfl) fun _ =>
    .append (fs := [_]) (gs := [_, _]) (.assign (g := fun s => add s w) fun _ => rfl) fun _ =>
    .append (fs := [_]) (gs := [_]) (.assignVal (g := fun q s => add s q) fun _ => rfl) fun _ => .assign (g := fun s => add s one) fun _ => rfl

/-! ## what a caller sees after a caught panic -/

/-- a property of the state not touched by the steps before the last one survives any panic -/
theorem Stops.keeps {σ β : Type} {φ : σ → β} {fs : List (σ → Res σ)} {g : σ → Res σ} {s : σ} {r : σ × Option Panic} {p : Panic}
    (h : Stops (fs ++ [g]) s r) (hp : r.2 = some p) (hk : ∀ f ∈ fs, ∀ s s', f s = .ok s' → φ s' = φ s) : φ r.1 = φ s := by
  induction fs generalizing s with
  | nil =>
    cases h with
    | panic _ => rfl
    | step _ hr => cases hr; simp at hp
  | cons f fs ih =>
    cases h with
    | panic _ => rfl
    | step h hr =>
      rw [ih hr fun f' hf' => hk f' (List.mem_cons_of_mem _ hf'), hk f (List.mem_cons_self ..) _ _ h]

/-- and if the steps did not panic, the last one acted on it -/
theorem Stops.last {σ β : Type} {φ : σ → β} {fs : List (σ → Res σ)} {g : σ → Res σ} {s : σ} {r : σ × Option Panic}
    (h : Stops (fs ++ [g]) s r) (hp : r.2 = none) (hk : ∀ f ∈ fs, ∀ s s', f s = .ok s' → φ s' = φ s) : ∃ t, φ t = φ s ∧ g t = .ok r.1 := by
  induction fs generalizing s with
  | nil =>
    cases h with
    | panic _ => simp at hp
    | step h hr => cases hr; exact ⟨_, rfl, h⟩
  | cons f fs ih =>
    cases h with
    | panic _ => simp at hp
    | step h hr =>
      obtain ⟨t, ht, hg⟩ := ih hr fun f' hf' => hk f' (List.mem_cons_of_mem _ hf')
      exact ⟨t, ht.trans (hk f (List.mem_cons_self ..) _ _ h), hg⟩

/-- C64: a fill that panics leaves numbers and `Sum`s unchanged, `WeightedSum::variance`, `Mean::num_samples` and `WeightedMean::num_samples` unchanged. -/
theorem C64_unchanged [RMulBy T W] {p : Panic} (d : T) (w : W) :
    (∀ x : T, (FillWith.fillWith d x).2 = some p → (FillWith.fillWith d x).1 = x) ∧
    (∀ x : T, (Fill.fill x).2 = some p → (Fill.fill x).1 = x) ∧
    (∀ x : Sum T, (FillWith.fillWith d x).2 = some p → (FillWith.fillWith d x).1 = x) ∧
    (∀ x : Sum T, (Fill.fill x).2 = some p → (Fill.fill x).1 = x) ∧
    (∀ x : WeightedSum T, (FillWith.fillWith d x).2 = some p → (FillWith.fillWith d x).1.variance = x.variance) ∧
    (∀ x : WeightedSum T, (Fill.fill x).2 = some p → (Fill.fill x).1.variance = x.variance) ∧
    (∀ x : Mean T O C, (FillWith.fillWith d x).2 = some p → (FillWith.fillWith d x).1.numSamples = x.numSamples) ∧
    (∀ x : WeightedMean T W O C, (FillWithWeighted.fillWithWeighted d w x).2 = some p →
      (FillWithWeighted.fillWithWeighted d w x).1.numSamples = x.numSamples) := by
  refine ⟨fun x h => ?_, fun x h => ?_, fun x h => ?_, fun x h => ?_, fun x h => ?_, fun x h => ?_, fun x h => ?_, fun x h => ?_⟩
  · exact Stops.keeps (fs := []) (φ := id) (C64_number x d).2 h (by simp)
  · exact Stops.keeps (fs := []) (φ := id) (C64_number x d).1 h (by simp)
  · exact Stops.keeps (fs := []) (φ := id) (C64_sum x d).2 h (by simp)
  · exact Stops.keeps (fs := []) (φ := id) (C64_sum x d).1 h (by simp)
  · refine Stops.keeps (fs := [_]) (φ := WeightedSum.variance) (C64_weighted_sum x d).2 h ?_
    simp only [List.mem_singleton, forall_eq, Res.bind_eq_ok]
    rintro s s' ⟨a, -, ⟨⟩⟩; rfl
  · refine Stops.keeps (fs := [_]) (φ := WeightedSum.variance) (C64_weighted_sum x d).1 h ?_
    simp only [List.mem_singleton, forall_eq, Res.bind_eq_ok]
    rintro s s' ⟨a, -, ⟨⟩⟩; rfl
  · refine Stops.keeps (fs := [_, _]) (φ := Mean.numSamples) (C64_mean x d) h ?_
    simp only [List.mem_cons, List.not_mem_nil, or_false, forall_eq_or_imp, forall_eq, Res.bind_eq_ok]
    refine ⟨?_, ?_⟩
    · rintro s s' ⟨a, -, ⟨⟩⟩; rfl
    · rintro s s' ⟨q, -, a, -, ⟨⟩⟩; rfl
  · refine Stops.keeps (fs := [_, _, _, _]) (φ := WeightedMean.numSamples) (C64_weighted_mean x d w) h ?_
    simp only [List.mem_cons, List.not_mem_nil, or_false, forall_eq_or_imp, forall_eq]
    refine ⟨?_, ?_, ?_, ?_⟩ <;> intro s s' hs
    · rw [Res.bind_eq_ok] at hs; obtain ⟨q, -, hs⟩ := hs
      rw [Res.bind_eq_ok] at hs; obtain ⟨a, -, ⟨⟩⟩ := hs; rfl
    · rw [Res.bind_eq_ok] at hs; obtain ⟨q, -, hs⟩ := hs
      rw [Res.bind_eq_ok] at hs; obtain ⟨a, -, ⟨⟩⟩ := hs; rfl
    · rw [Res.bind_eq_ok] at hs; obtain ⟨a, -, ⟨⟩⟩ := hs; rfl
    · rw [Res.bind_eq_ok] at hs; obtain ⟨q, -, hs⟩ := hs
      rw [Res.bind_eq_ok] at hs; obtain ⟨a, -, ⟨⟩⟩ := hs; rfl
end

/-! ## histories with caught panics, in a build with overflow checks -/
section
variable [Cfg] {T W O : Type} [RNum T] [RNum W] {κ : IntTy}

omit [RNum T] [RNum W] in
theorem checked_add {a b c : MInt κ} (hc : Cfg.checked = true) (h : MInt.arith (a.val + b.val) = .ok c) : c.val = a.val + b.val := by
  unfold MInt.arith at h
  split at h
  · cases h; rfl
  · simp [hc] at h

theorem caught_total {σ : Type} {φ : σ → Int} {l : List (Upd σ)} {ds : List Int}
    (hl : List.Forall₂ (fun u d => ∀ s, φ (u s).1 = φ s + if (u s).2.isNone then d else 0) l ds) (s : σ) :
    φ (caught l s).1 = φ s + totalOf (ds.zip (caught l s).2) := by
  induction hl generalizing s with
  | nil => simp [caught, totalOf]
  | @cons u d l ds hu _ ih =>
    simp only [caught, List.zip_cons_cons]
    rw [ih, hu]
    cases (u s).2 <;> simp [totalOf, add_assoc]

theorem totalOf_ones : ∀ l : List Bool, ∀ n, l.length = n → totalOf ((List.replicate n 1).zip l) = l.count true
  | [], _, rfl => rfl
  | b :: l, _, rfl => by
    rw [List.length_cons, List.replicate_succ, List.zip_cons_cons]
    cases b <;> simp [totalOf, totalOf_ones l _ rfl, add_comm]

theorem caught_length {σ : Type} (l : List (Upd σ)) (s : σ) : (caught l s).2.length = l.length := by
  induction l generalizing s with
  | nil => rfl
  | cons u l ih => simp [caught, ih]

/-- C64: with overflow checks, an integer filled with data, panics being caught, holds what it held plus the exact total of the data whose fill returned. -/
theorem C64_int_total (hc : Cfg.checked = true) (ds : List (MInt κ)) (x : MInt κ) :
    (caught (ds.map fun d => FillWith.fillWith d) x).1.val = x.val +
      totalOf ((ds.map MInt.val).zip (caught (ds.map fun d => (FillWith.fillWith d : Upd (MInt κ))) x).2) := by
  refine caught_total (φ := MInt.val) ?_ x
  rw [List.forall₂_map_left_iff, List.forall₂_map_right_iff]
  refine List.forall₂_same.2 fun d _ s => ?_
  cases hp : (FillWith.fillWith d s : MInt κ × _).2 with
  | some p => simp [(C64_unchanged (O := Unit) (C := MInt κ) (p := p) d d).1 s hp]
  | none =>
    obtain ⟨t, ht, hg⟩ := Stops.last (fs := []) (φ := id) (C64_number s d).2 hp (by simp)
    cases ht
    simpa using checked_add hc hg

/-- C64: the same for a `Sum` of integers. -/
theorem C64_sum_total (hc : Cfg.checked = true) (ds : List (MInt κ)) (x : Sum (MInt κ)) :
    (caught (ds.map fun d => FillWith.fillWith d) x).1.get.val = x.get.val +
      totalOf ((ds.map MInt.val).zip (caught (ds.map fun d => (FillWith.fillWith d : Upd (Sum (MInt κ)))) x).2) := by
  refine caught_total (φ := fun s : Sum (MInt κ) => s.get.val) ?_ x
  rw [List.forall₂_map_left_iff, List.forall₂_map_right_iff]
  refine List.forall₂_same.2 fun d _ s => ?_
  cases hp : (FillWith.fillWith d s : Sum (MInt κ) × _).2 with
  | some p => simp [(C64_unchanged (O := Unit) (C := MInt κ) (p := p) d d).2.2.1 s hp]
  | none =>
    obtain ⟨t, ht, hg⟩ := Stops.last (fs := []) (φ := id) (C64_sum s d).2 hp (by simp)
    cases ht
    rw [Res.bind_eq_ok] at hg
    obtain ⟨a, h1, h2⟩ := hg
    have := checked_add hc h1
    simp only [Option.isNone_none, if_true, Sum.get]
    rw [show (FillWith.fillWith d s : Sum (MInt κ) × _).1 = ⟨a⟩ from (Except.ok.inj h2).symm]
    exact this

/-- C64: with overflow checks, `Mean::num_samples` counts exactly the fills that returned. -/
theorem C64_mean_samples (hc : Cfg.checked = true) (ds : List T) (x : Mean T O (MInt κ)) :
    (caught (ds.map fun d => FillWith.fillWith d) x).1.numSamples.val = x.numSamples.val +
      (caught (ds.map fun d => (FillWith.fillWith d : Upd (Mean T O (MInt κ)))) x).2.count true := by
  have := caught_total (φ := fun s : Mean T O (MInt κ) => s.numSamples.val) (l := ds.map fun d => FillWith.fillWith d) (ds := List.replicate ds.length 1) ?_ x
  · rwa [totalOf_ones _ _ (by rw [caught_length, List.length_map])] at this
  rw [show List.replicate ds.length (1 : Int) = ds.map fun _ => 1 by simp, List.forall₂_map_left_iff, List.forall₂_map_right_iff]
  refine List.forall₂_same.2 fun d _ s => ?_
  cases hp : (FillWith.fillWith d s : Mean T O (MInt κ) × _).2 with
  | some p => simp [(C64_unchanged (p := p) (W := T) d d).2.2.2.2.2.2.1 s hp]
  | none =>
    obtain ⟨t, ht, hg⟩ := Stops.last (fs := [_, _]) (φ := Mean.numSamples) (C64_mean s d) hp (by
      simp only [List.mem_cons, List.not_mem_nil, or_false, forall_eq_or_imp, forall_eq, Res.bind_eq_ok]
      refine ⟨?_, ?_⟩
      · rintro s s' ⟨a, -, ⟨⟩⟩; rfl
      · rintro s s' ⟨q, -, a, -, ⟨⟩⟩; rfl)
    rw [Res.bind_eq_ok] at hg
    obtain ⟨a, h1, h2⟩ := hg
    have := checked_add hc h1
    rw [MInt.one_val] at this
    rw [show (FillWith.fillWith d s : Mean T O (MInt κ) × _).1 = { t with count := a } from (Except.ok.inj h2).symm]
    have ht : t.count = s.count := ht
    simp only [Option.isNone_none, if_true, Mean.numSamples]
    rw [this, ht]

/-- C64: with overflow checks, `WeightedMean::num_samples` counts exactly the fills that returned. -/
theorem C64_weighted_mean_samples [RMulBy T W] (hc : Cfg.checked = true) (ds : List (T × W)) (x : WeightedMean T W O (MInt κ)) :
    (caught (ds.map fun d => FillWithWeighted.fillWithWeighted d.1 d.2) x).1.numSamples.val = x.numSamples.val +
      (caught (ds.map fun d => (FillWithWeighted.fillWithWeighted d.1 d.2 : Upd (WeightedMean T W O (MInt κ)))) x).2.count true := by
  have := caught_total (φ := fun s : WeightedMean T W O (MInt κ) => s.numSamples.val) (l := ds.map fun d => FillWithWeighted.fillWithWeighted d.1 d.2)
    (ds := List.replicate ds.length 1) ?_ x
  · rwa [totalOf_ones _ _ (by rw [caught_length, List.length_map])] at this
  rw [show List.replicate ds.length (1 : Int) = ds.map fun _ => 1 by simp, List.forall₂_map_left_iff, List.forall₂_map_right_iff]
  refine List.forall₂_same.2 fun d _ s => ?_
  cases hp : (FillWithWeighted.fillWithWeighted d.1 d.2 s : WeightedMean T W O (MInt κ) × _).2 with
  | some p => simp [(C64_unchanged (p := p) d.1 d.2).2.2.2.2.2.2.2 s hp]
  | none =>
    obtain ⟨t, ht, hg⟩ := Stops.last (fs := [_, _, _, _]) (φ := WeightedMean.numSamples) (C64_weighted_mean s d.1 d.2) hp (by
      simp only [List.mem_cons, List.not_mem_nil, or_false, forall_eq_or_imp, forall_eq]
      refine ⟨?_, ?_, ?_, ?_⟩ <;> intro s s' hs
      · rw [Res.bind_eq_ok] at hs; obtain ⟨q, -, hs⟩ := hs
        rw [Res.bind_eq_ok] at hs; obtain ⟨a, -, ⟨⟩⟩ := hs; rfl
      · rw [Res.bind_eq_ok] at hs; obtain ⟨q, -, hs⟩ := hs
        rw [Res.bind_eq_ok] at hs; obtain ⟨a, -, ⟨⟩⟩ := hs; rfl
      · rw [Res.bind_eq_ok] at hs; obtain ⟨a, -, ⟨⟩⟩ := hs; rfl
      · rw [Res.bind_eq_ok] at hs; obtain ⟨q, -, hs⟩ := hs
        rw [Res.bind_eq_ok] at hs; obtain ⟨a, -, ⟨⟩⟩ := hs; rfl)
    rw [Res.bind_eq_ok] at hg
    obtain ⟨a, h1, h2⟩ := hg
    have := checked_add hc h1
    rw [MInt.one_val] at this
    rw [show (FillWithWeighted.fillWithWeighted d.1 d.2 s : WeightedMean T W O (MInt κ) × _).1 = { t with count := a } from (Except.ok.inj h2).symm]
    have ht : t.count = s.count := ht
    simp only [Option.isNone_none, if_true, WeightedMean.numSamples]
    rw [this, ht]
end

/-! ## whole histograms -/
section
variable [Cfg] {A : Type} [Axis A] {κ : IntTy}

/-- C64: with overflow checks, after any history of fills of a dense integer histogram with all panics caught, each bin holds what it held plus the exact total of
the data that were put into it by calls that returned. -/
theorem C64_dense_total (hc : Cfg.checked = true) {h : VecHistogram A (MInt κ)} {n : Nat} (ok : h.Ok n) (cs : List (Axis.Coordinate A × MInt κ)) {i : Nat} {v : MInt κ}
    (hv : h.valueAtIndex i = some v) :
    let r := h.caught (cs.map fun c => .fillWith c.1 c.2)
    r.1.Ok n ∧ r.1.axes = h.axes ∧ ∃ v', r.1.valueAtIndex i = some v' ∧ v'.val = v.val + totalOf ((intoBin h.axes i cs).zip r.2) := by
  induction cs generalizing h v with
  | nil => exact ⟨ok, rfl, v, hv, by simp [intoBin, totalOf]⟩
  | cons c cs ih =>
    obtain ⟨hax, hok, h3, h4, h5⟩ := C27_dense ok (.fillWith c.1 c.2 : Call (MInt κ) (Axis.Coordinate A))
    simp only [List.map_cons, VecHistogram.caught]
    have key : ∃ w, (h.call (.fillWith c.1 c.2)).1.valueAtIndex i = some w ∧
        w.val = v.val + totalOf ((intoBin h.axes i [c]).zip [(h.call (.fillWith c.1 c.2)).2.isNone]) := by
      rcases hi : Axis.index h.axes c.1 with p | _ | j
      · rw [h5 p hi]; exact ⟨v, hv, by simp [intoBin, totalOf]⟩
      · rw [h4 hi]; exact ⟨v, hv, by simp [intoBin, hi, totalOf]⟩
      · obtain ⟨⟨u, hu, h6, h7⟩, h8⟩ := h3 j hi
        by_cases hj : j = i
        · subst hj
          rw [hv] at hu; cases hu
          refine ⟨_, h6, ?_⟩
          rw [h7]
          have := C64_int_total hc [c.2] v
          simp only [caught, List.map_cons, List.map_nil] at this
          simpa [intoBin, hi, Call.on] using this
        · refine ⟨v, by rw [h8 i (Ne.symm hj), hv], ?_⟩
          simp only [intoBin, List.map_cons, hi, if_neg hj, List.map_nil, List.zip_cons_cons, List.zip_nil_left]
          cases (h.call (.fillWith c.1 c.2 : Call (MInt κ) (Axis.Coordinate A))).2.isNone <;> simp [totalOf]
    obtain ⟨w, hw, hwv⟩ := key
    obtain ⟨a1, a2, v', a3, a4⟩ := ih hok hw
    refine ⟨a1, a2.trans hax, v', a3, ?_⟩
    rw [a4, hwv, hax]
    simp only [intoBin, List.map_cons, List.map_nil, List.zip_cons_cons, List.zip_nil_left]
    cases (h.call (.fillWith c.1 c.2 : Call (MInt κ) (Axis.Coordinate A))).2.isNone <;> simp [totalOf, add_assoc]

/-- C64: the same for a sparse integer histogram, an absent bin holding zero. -/
theorem C64_sparse_total (hc : Cfg.checked = true) {h : HashHistogram A (MInt κ)} {n : Nat} (ok : h.Ok n) (cs : List (Axis.Coordinate A × MInt κ)) (i : Nat) :
    let r := h.caught (cs.map fun c => .fillWith c.1 c.2)
    r.1.Ok n ∧ r.1.axes = h.axes ∧ heldBy r.1 i = heldBy h i + totalOf ((intoBin h.axes i cs).zip r.2) := by
  induction cs generalizing h with
  | nil => exact ⟨ok, rfl, by simp [intoBin, totalOf, HashHistogram.caught]⟩
  | cons c cs ih =>
    obtain ⟨hax, hok, h3, h4, h5⟩ := C27_sparse ok (.fillWith c.1 c.2 : Call (MInt κ) (Axis.Coordinate A))
    simp only [List.map_cons, HashHistogram.caught]
    have key : heldBy (h.call (.fillWith c.1 c.2)).1 i = heldBy h i + totalOf ((intoBin h.axes i [c]).zip [(h.call (.fillWith c.1 c.2)).2.isNone]) := by
      rcases hi : Axis.index h.axes c.1 with p | _ | j
      · rw [h5 p hi]; simp [intoBin, totalOf]
      · rw [h4 hi]; simp [intoBin, hi, totalOf]
      · obtain ⟨h6, h7, h8⟩ := h3 j hi
        by_cases hj : j = i
        · subst hj
          rw [h7]
          have := C64_int_total hc [c.2] ((h.valueAtIndex j).getD RDefault.dflt)
          simp only [caught, List.map_cons, List.map_nil] at this
          unfold heldBy
          rw [h6]
          have h0 : ((h.valueAtIndex j).getD RDefault.dflt).val = ((h.valueAtIndex j).map MInt.val).getD 0 := by
            cases h.valueAtIndex j <;> rfl
          rw [← h0]
          simpa [intoBin, hi, Call.on] using this
        · unfold heldBy
          rw [h8 i (Ne.symm hj)]
          simp only [intoBin, List.map_cons, hi, if_neg hj, List.map_nil, List.zip_cons_cons, List.zip_nil_left]
          cases (h.call (.fillWith c.1 c.2 : Call (MInt κ) (Axis.Coordinate A))).2.isNone <;> simp [totalOf]
    obtain ⟨a1, a2, a3⟩ := ih hok
    refine ⟨a1, a2.trans hax, ?_⟩
    rw [a3, key, hax]
    simp only [intoBin, List.map_cons, List.map_nil, List.zip_cons_cons, List.zip_nil_left]
    cases (h.call (.fillWith c.1 c.2 : Call (MInt κ) (Axis.Coordinate A))).2.isNone <;> simp [totalOf, add_assoc]
end
end NdHist
