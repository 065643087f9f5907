import Verif.Props.IntMean
/-!
# C88: values without a histogram
-/
namespace NdHist
open RNum

/-! ## One bin, one value -/

section
variable [cfg : Cfg] {A V : Type} [Axis A]

theorem callAll_one_dense {n : Nat} {c : Axis.Coordinate A} {i : Nat} (calls : List (Call V (Axis.Coordinate A))) (hc : ∀ call ∈ calls, call.coord = c) :
    ∀ {h : VecHistogram A V} {v : V}, h.Ok n → Axis.index h.axes c = .ok (some i) → h.valueAtIndex i = some v →
      (h.callAll calls).1.valueAtIndex i = some (fillSeq calls v).1 ∧ (h.callAll calls).2 = (fillSeq calls v).2 ∧ ∀ j, j ≠ i → (h.callAll calls).1.valueAtIndex j = h.valueAtIndex j := by
  induction calls with
  | nil => intro h v _ _ hv; exact ⟨hv, rfl, fun _ _ => rfl⟩
  | cons call calls ih =>
    intro h v ok hi hv
    have hcc := hc call (by simp)
    obtain ⟨a1, a2, a3, -⟩ := C27_dense ok call
    obtain ⟨⟨v', b1, b2, b3⟩, b4⟩ := a3 i (by rw [hcc]; exact hi)
    rw [hv] at b1
    cases b1
    cases hp : (call.on v).2 with
    | some p =>
      have e1 : h.callAll (call :: calls) = h.call call := by
        rw [VecHistogram.callAll]
        rw [hp] at b3
        generalize h.call call = q at b3 ⊢
        obtain ⟨q1, q2⟩ := q
        simp only at b3; subst b3; rfl
      have e2 : fillSeq (call :: calls) v = call.on v := by
        rw [fillSeq]
        generalize call.on v = q at hp ⊢
        obtain ⟨q1, q2⟩ := q
        simp only at hp; subst hp; rfl
      rw [e1, e2]
      exact ⟨b2, b3, b4⟩
    | none =>
      have e1 : h.callAll (call :: calls) = (h.call call).1.callAll calls := by
        rw [VecHistogram.callAll]
        rw [hp] at b3
        generalize h.call call = q at b3 ⊢
        obtain ⟨q1, q2⟩ := q
        simp only at b3; subst b3; rfl
      have e2 : fillSeq (call :: calls) v = fillSeq calls (call.on v).1 := by
        rw [fillSeq]
        generalize call.on v = q at hp ⊢
        obtain ⟨q1, q2⟩ := q
        simp only at hp; subst hp; rfl
      rw [e1, e2]
      obtain ⟨c1, c2, c3⟩ := ih (fun x hx => hc x (by simp [hx])) a2 (by rw [a1]; exact hi) b2
      exact ⟨c1, c2, fun j hj => (c3 j hj).trans (b4 j hj)⟩

theorem callAll_one_sparse [RDefault V] {n : Nat} {c : Axis.Coordinate A} {i : Nat} (calls : List (Call V (Axis.Coordinate A))) (hc : ∀ call ∈ calls, call.coord = c) :
    ∀ {h : HashHistogram A V}, h.Ok n → Axis.index h.axes c = .ok (some i) →
      ((h.callAll calls).1.valueAtIndex i).getD RDefault.dflt = (fillSeq calls ((h.valueAtIndex i).getD RDefault.dflt)).1 ∧
      (h.callAll calls).2 = (fillSeq calls ((h.valueAtIndex i).getD RDefault.dflt)).2 ∧ (∀ j, j ≠ i → (h.callAll calls).1.valueAtIndex j = h.valueAtIndex j) ∧
      ((h.callAll calls).1.valueAtIndex i = none ↔ h.valueAtIndex i = none ∧ calls = []) := by
  induction calls with
  | nil => intro h _ _; exact ⟨rfl, rfl, fun _ _ => rfl, by simp [HashHistogram.callAll]⟩
  | cons call calls ih =>
    intro h ok hi
    have hcc := hc call (by simp)
    obtain ⟨a1, a2, a3, -⟩ := C27_sparse ok call
    obtain ⟨b2, b3, b4⟩ := a3 i (by rw [hcc]; exact hi)
    generalize (h.valueAtIndex i).getD RDefault.dflt = v at b2 b3 ⊢
    cases hp : (call.on v).2 with
    | some p =>
      have e1 : h.callAll (call :: calls) = h.call call := by
        rw [HashHistogram.callAll]
        rw [hp] at b3
        generalize h.call call = q at b3 ⊢
        obtain ⟨q1, q2⟩ := q
        simp only at b3; subst b3; rfl
      have e2 : fillSeq (call :: calls) v = call.on v := by
        rw [fillSeq]
        generalize call.on v = q at hp ⊢
        obtain ⟨q1, q2⟩ := q
        simp only at hp; subst hp; rfl
      rw [e1, e2]
      exact ⟨by rw [b2]; rfl, b3, b4, by rw [b2]; simp⟩
    | none =>
      have e1 : h.callAll (call :: calls) = (h.call call).1.callAll calls := by
        rw [HashHistogram.callAll]
        rw [hp] at b3
        generalize h.call call = q at b3 ⊢
        obtain ⟨q1, q2⟩ := q
        simp only at b3; subst b3; rfl
      have e2 : fillSeq (call :: calls) v = fillSeq calls (call.on v).1 := by
        rw [fillSeq]
        generalize call.on v = q at hp ⊢
        obtain ⟨q1, q2⟩ := q
        simp only at hp; subst hp; rfl
      rw [e1, e2]
      obtain ⟨c1, c2, c3, c4⟩ := ih (fun x hx => hc x (by simp [hx])) a2 (by rw [a1]; exact hi)
      rw [b2] at c1 c2 c4
      exact ⟨c1, c2, fun j hj => (c3 j hj).trans (b4 j hj), by rw [c4]; simp⟩

omit cfg in
theorem foldl_andThen {α C : Type} (f : α → Call V C) (l : List α) (g : Upd V) (v : V) :
    (l.foldl (fun g x => Upd.andThen g (f x).on) g) v = match g v with
      | (v', none) => fillSeq (l.map f) v'
      | (v', some p) => (v', some p) := by
  induction l generalizing g with
  | nil =>
    simp only [List.foldl_nil, List.map_nil, fillSeq]
    generalize g v = q
    obtain ⟨q1, _ | q2⟩ := q <;> rfl
  | cons x l ih =>
    simp only [List.foldl_cons, List.map_cons, fillSeq, ih]
    unfold Upd.andThen
    generalize g v = q
    obtain ⟨q1, _ | q2⟩ := q
    · dsimp only
      generalize (f x).on q1 = r
      obtain ⟨r1, _ | r2⟩ := r <;> rfl
    · rfl
end

section
variable [cfg : Cfg] {T W O C : Type} [RNum T] [RNum C]

theorem Mean.new_eq {X : Type} (c : X) (xs : List T) : (Mean.new xs : Mean T O C × Option Panic) = fillSeq (xs.map fun x => (Call.fillWith c x : Call (Mean T O C) X)) RDefault.dflt :=
  foldl_andThen (fun x => (Call.fillWith c x : Call (Mean T O C) X)) xs (fun s => (s, none)) RDefault.dflt

theorem WeightedMean.new_eq [RNum W] [RMulBy T W] {X : Type} (c : X) (xs : List (T × W)) :
    (WeightedMean.new xs : WeightedMean T W O C × Option Panic) = fillSeq (xs.map fun x => (Call.fillWithWeighted c x.1 x.2 : Call (WeightedMean T W O C) X)) RDefault.dflt :=
  foldl_andThen (fun x : T × W => (Call.fillWithWeighted c x.1 x.2 : Call (WeightedMean T W O C) X)) xs (fun s => (s, none)) RDefault.dflt

variable {A : Type} [Axis A] {axes : A} {n : Nat}

/-- **C88 (a bin is a value, `Mean`).** Fill one bin of a new dense histogram of `Mean`s with samples, one after another. The bin then has the value `Mean::new(samples)`, and the fills panic
exactly if `Mean::new(samples)` does, with the same panic (the bin then has the value at this point). The other bins stay as new. -/
theorem C88_mean (hl : LawfulAxis axes n) {h : VecHistogram A (Mean T O C)} (hnew : VecHistogram.new axes = .ok h) {c : Axis.Coordinate A} {i : Nat}
    (hi : Axis.index axes c = .ok (some i)) (xs : List T) :
    let r := h.callAll (xs.map fun x => .fillWith c x)
    r.1.valueAtIndex i = some (Mean.new xs).1 ∧ r.2 = (Mean.new xs : Mean T O C × Option Panic).2 ∧ ∀ j, j < n → j ≠ i → r.1.valueAtIndex j = some (Mean.new []).1 := by
  obtain ⟨h₀, b1, b2, b3, b4⟩ := C26_new (V := Mean T O C) hl
  obtain rfl : h = h₀ := by rw [hnew] at b1; exact Except.ok.inj b1
  obtain ⟨p1, p2, p3⟩ := callAll_one_dense (xs.map fun x => (Call.fillWith c x : Call (Mean T O C) (Axis.Coordinate A))) (c := c) (i := i) (by simp only [List.mem_map]; rintro _ ⟨x, -, rfl⟩; rfl)
    b2 (by rw [b3]; exact hi) (by rw [b4, if_pos (hl.index_lt _ _ hi)])
  rw [← Mean.new_eq] at p1 p2
  exact ⟨p1, p2, fun j hj hji => by rw [p3 j hji, b4, if_pos hj]; rfl⟩

/-- **C88 (a bin is a value, `Mean`, sparse).** If there are samples. -/
theorem C88_mean_sparse (hl : LawfulAxis axes n) {c : Axis.Coordinate A} {i : Nat} (hi : Axis.index axes c = .ok (some i)) (xs : List T) :
    let r := (HashHistogram.new axes : HashHistogram A (Mean T O C)).callAll (xs.map fun x => .fillWith c x)
    (xs ≠ [] → r.1.valueAtIndex i = some (Mean.new xs).1) ∧ r.2 = (Mean.new xs : Mean T O C × Option Panic).2 ∧ ∀ j, j ≠ i ∨ xs = [] → r.1.valueAtIndex j = none := by
  have ok : (HashHistogram.new axes : HashHistogram A (Mean T O C)).Ok n := ⟨hl, List.nodup_nil, fun i hi => absurd hi (by simp [HashHistogram.new, HMap.keys, HMap.empty])⟩
  obtain ⟨p1, p2, p3, p4⟩ := callAll_one_sparse (xs.map fun x => (Call.fillWith c x : Call (Mean T O C) (Axis.Coordinate A))) (c := c) (i := i) (by simp only [List.mem_map]; rintro _ ⟨x, -, rfl⟩; rfl) ok hi
  have e0 : ((HashHistogram.new axes : HashHistogram A (Mean T O C)).valueAtIndex i) = none := rfl
  rw [e0, Option.getD_none, ← Mean.new_eq] at p1 p2
  simp only [e0, true_and, List.map_eq_nil_iff] at p4
  refine ⟨fun hne => ?_, p2, fun j hj => ?_⟩
  · rw [← p1]
    generalize ((HashHistogram.new axes : HashHistogram A (Mean T O C)).callAll _).1.valueAtIndex i = q at p4 ⊢
    cases q with
    | none => exact absurd (p4.1 rfl) hne
    | some q => rfl
  · rcases hj with hj | rfl
    · rw [p3 j hj]; rfl
    · rfl

/-- **C88 (a bin is a value, `WeightedMean`).** -/
theorem C88_weighted_mean [RNum W] [RMulBy T W] (hl : LawfulAxis axes n) {h : VecHistogram A (WeightedMean T W O C)} (hnew : VecHistogram.new axes = .ok h) {c : Axis.Coordinate A} {i : Nat}
    (hi : Axis.index axes c = .ok (some i)) (xs : List (T × W)) :
    let r := h.callAll (xs.map fun x => .fillWithWeighted c x.1 x.2)
    r.1.valueAtIndex i = some (WeightedMean.new xs).1 ∧ r.2 = (WeightedMean.new xs : WeightedMean T W O C × Option Panic).2 ∧
      ∀ j, j < n → j ≠ i → r.1.valueAtIndex j = some (WeightedMean.new []).1 := by
  obtain ⟨h₀, b1, b2, b3, b4⟩ := C26_new (V := WeightedMean T W O C) hl
  obtain rfl : h = h₀ := by rw [hnew] at b1; exact Except.ok.inj b1
  obtain ⟨p1, p2, p3⟩ := callAll_one_dense (xs.map fun x => (Call.fillWithWeighted c x.1 x.2 : Call (WeightedMean T W O C) (Axis.Coordinate A))) (c := c) (i := i)
    (by simp only [List.mem_map]; rintro _ ⟨x, -, rfl⟩; rfl) b2 (by rw [b3]; exact hi) (by rw [b4, if_pos (hl.index_lt _ _ hi)])
  rw [← WeightedMean.new_eq] at p1 p2
  exact ⟨p1, p2, fun j hj hji => by rw [p3 j hji, b4, if_pos hj]; rfl⟩

/-- **C88 (a bin is a value, `WeightedMean`, sparse).** If there are samples. -/
theorem C88_weighted_mean_sparse [RNum W] [RMulBy T W] (hl : LawfulAxis axes n) {c : Axis.Coordinate A} {i : Nat} (hi : Axis.index axes c = .ok (some i)) (xs : List (T × W)) :
    let r := (HashHistogram.new axes : HashHistogram A (WeightedMean T W O C)).callAll (xs.map fun x => .fillWithWeighted c x.1 x.2)
    (xs ≠ [] → r.1.valueAtIndex i = some (WeightedMean.new xs).1) ∧ r.2 = (WeightedMean.new xs : WeightedMean T W O C × Option Panic).2 ∧ ∀ j, j ≠ i ∨ xs = [] → r.1.valueAtIndex j = none := by
  have ok : (HashHistogram.new axes : HashHistogram A (WeightedMean T W O C)).Ok n := ⟨hl, List.nodup_nil, fun i hi => absurd hi (by simp [HashHistogram.new, HMap.keys, HMap.empty])⟩
  obtain ⟨p1, p2, p3, p4⟩ := callAll_one_sparse (xs.map fun x => (Call.fillWithWeighted c x.1 x.2 : Call (WeightedMean T W O C) (Axis.Coordinate A))) (c := c) (i := i)
    (by simp only [List.mem_map]; rintro _ ⟨x, -, rfl⟩; rfl) ok hi
  have e0 : ((HashHistogram.new axes : HashHistogram A (WeightedMean T W O C)).valueAtIndex i) = none := rfl
  rw [e0, Option.getD_none, ← WeightedMean.new_eq] at p1 p2
  simp only [e0, true_and, List.map_eq_nil_iff] at p4
  refine ⟨fun hne => ?_, p2, fun j hj => ?_⟩
  · rw [← p1]
    generalize ((HashHistogram.new axes : HashHistogram A (WeightedMean T W O C)).callAll _).1.valueAtIndex i = q at p4 ⊢
    cases q with
    | none => exact absurd (p4.1 rfl) hne
    | some q => rfl
  · rcases hj with hj | rfl
    · rw [p3 j hj]; rfl
    · rfl

omit [Axis A] in
/-- **C88 (in two parts).** `Mean::new` of samples and then more samples is `Mean::new` of the former, filled with the latter. -/
theorem C88_append (xs ys : List T) {m : Mean T O C} (h : Mean.new xs = (m, none)) :
    (Mean.new (xs ++ ys) : Mean T O C × Option Panic) = fillSeq (ys.map fun y => (Call.fillWith () y : Call (Mean T O C) Unit)) m := by
  rw [Mean.new_eq ()] at h ⊢
  rw [List.map_append]
  revert h
  generalize (xs.map fun x => (Call.fillWith () x : Call (Mean T O C) Unit)) = l
  generalize (RDefault.dflt : Mean T O C) = v
  intro h
  induction l generalizing v with
  | nil => cases h; rfl
  | cons a l ih =>
    rw [List.cons_append, fillSeq]
    rw [fillSeq] at h
    revert h
    generalize a.on v = q
    obtain ⟨q1, _ | q2⟩ := q
    · exact ih q1
    · intro h; cases h
end

/-! ## The numbers -/

section
variable [cfg : Cfg] {T W C K : Type} [RNum T] [RNum W] [RNum C] [Field K] [LinearOrder K] [IsStrictOrderedRing K] [FloorRing K]
  [RFrom T K] [RFrom W K] [RFrom C K] [Faithful T K] [Faithful W K] [Faithful C K] [RMulBy T W] [FaithfulMul T W K]

attribute [local instance] exactNum exactAbs in
omit [RNum W] [RFrom W K] [Faithful W K] [RMulBy T W] [FaithfulMul T W K] in
/-- **C88 (what `Mean::new` computes).** If it does not panic: the arithmetic mean, the number of samples, the mean squared deviation, and this divided by the number of samples. (Output in exact arithmetic.) -/
theorem C88_mean_exact (xs : List T) (hne : xs ≠ []) {m : Mean T K C} (h : Mean.new xs = (m, none)) :
    let ys : List K := xs.map fun x => RFrom.conv x
    m.get = .ok (avg ys) ∧ (RFrom.conv m.numSamples : K) = xs.length ∧ m.varianceOfSamples = .ok (avg (ys.map fun y => (y - avg ys) ^ 2)) ∧
    m.varianceOfMean = .ok (avg (ys.map fun y => (y - avg ys) ^ 2) / xs.length) := by
  rw [Mean.new_eq ()] at h
  obtain ⟨h1, h2, h3, h4, -⟩ := C41_mean (K := K) xs hne h
  exact ⟨h1, h2, h3, h4⟩

attribute [local instance] exactNum in
/-- **C88 (what `WeightedMean::new` computes).** -/
theorem C88_weighted_mean_exact (xs : List (T × W)) {m : WeightedMean T W K C} (h : WeightedMean.new xs = (m, none)) :
    let ys : List (K × K) := xs.map fun x => (RFrom.conv x.1, RFrom.conv x.2)
    totalWeight ys ≠ 0 → m.get = .ok (wavg ys) ∧ (RFrom.conv m.numSamples : K) = xs.length ∧ m.varianceOfSamples = .ok (wvar ys) ∧
    m.varianceOfMean = .ok (wvar ys * (ys.map fun y => y.2 ^ 2).sum / totalWeight ys ^ 2) := by
  rw [WeightedMean.new_eq ()] at h
  intro ys hw
  obtain ⟨h1, h2, h3, h4, -⟩ := C42_weighted_mean (K := K) xs h hw
  exact ⟨h1, h2, h3, h4⟩
end

section
variable [cfg : Cfg] {τ κ : IntTy} {F : FFmt}

/-- **C88 (integers).** `Mean::new` of integers, with overflow checks and exact conversion to the float type: it panics exactly if the sum of the samples so far leaves the range of the type at some point, or the sum of all squares
does, or the number of samples that of the count. Otherwise `get` is the float closest to the mean, and so on; without samples it is NaN. -/
theorem C88_mean_int (hc : Cfg.checked = true) (hp3 : 3 ≤ F.p) (hem : F.emin + 2 * F.p + 2 ≤ 0) (hτ : -2 ^ F.p ≤ τ.min ∧ τ.max ≤ 2 ^ F.p) (hκ : κ.max ≤ 2 ^ F.p) (xs : List (MInt τ)) :
    let r : Mean (MInt τ) (Flt F) (MInt κ) × Option Panic := Mean.new xs
    let N : ℚ := xs.length
    let mean : ℚ := ((xs.map MInt.val).sum : ℤ) / N
    let meanSquare : ℚ := ((xs.map fun x => x.val ^ 2).sum : ℤ) / N
    (r.2 = none ↔ (∀ q, q <+: xs → InRange τ (q.map MInt.val).sum) ∧ InRange τ (xs.map fun x => x.val ^ 2).sum ∧ InRange κ xs.length) ∧
    (r.2 = none → r.1.numSamples.val = xs.length ∧ (xs = [] → r.1.get = .ok .nan) ∧
      (xs ≠ [] → ∃ q v vm, r.1.get = .ok q ∧ Closest mean q ∧ r.1.varianceOfSamples = .ok v ∧ v.isFin ∧ 0 ≤ v.val ∧
        |v.val - (meanSquare - mean ^ 2)| ≤ ((1 + F.u) ^ 2 - 1) * meanSquare + ((1 + F.u) ^ 4 - 1) * mean ^ 2 ∧
        ((∃ c, ∀ x ∈ xs, x = c) → v.val = 0) ∧ r.1.varianceOfMean = .ok vm ∧ Closest (v.val / N) vm)) := by
  have e : (Mean.new xs : Mean (MInt τ) (Flt F) (MInt κ) × Option Panic) = fillSeq (meanFills (xs.map fun x => ((), x))) RDefault.dflt := by
    rw [Mean.new_eq (), meanFills, List.map_map]; rfl
  obtain ⟨k1, k2⟩ := mean_seq (κ := κ) (O := Flt F) hc (xs.map fun x => ((), x)) RDefault.dflt le_rfl le_rfl
  have e2 : ((xs.map fun x => ((), x)).map fun cx : Unit × MInt τ => cx.2.val) = xs.map MInt.val := by rw [List.map_map]; rfl
  rw [e2] at k1 k2
  rw [← e] at k1 k2
  have z1 : (RDefault.dflt : Mean (MInt τ) (Flt F) (MInt κ)).sumw.val = 0 := rfl
  have z2 : (RDefault.dflt : Mean (MInt τ) (Flt F) (MInt κ)).sumw2.val = 0 := rfl
  have z3 : (RDefault.dflt : Mean (MInt τ) (Flt F) (MInt κ)).count.val = 0 := rfl
  have e3 : ((xs.map MInt.val).map fun x => x ^ 2) = xs.map fun x => x.val ^ 2 := by rw [List.map_map]; rfl
  simp only [z1, z2, z3, zero_add, e3, List.length_map] at k1 k2
  refine ⟨?_, fun hn => ?_⟩
  · rw [k1]
    refine and_congr_left fun _ => ⟨fun h q hq => h _ (hq.map _), fun h q hq => ?_⟩
    obtain ⟨q', h1, rfl⟩ := List.prefix_map_iff.1 hq
    exact h q' h1
  · obtain ⟨t1, t2, t3⟩ := k2 _ (Prod.ext rfl hn)
    have := mean_of_totals hp3 hem hτ hκ (Mean.new xs : Mean (MInt τ) (Flt F) (MInt κ) × Option Panic).1 (xs.map MInt.val) t1 (by rw [t2, e3]) (by rw [t3, List.length_map])
    simp only [List.length_map, e3, List.map_eq_nil_iff, ne_eq] at this
    refine ⟨this.1, this.2.1, fun hne => ?_⟩
    obtain ⟨q, v, vm, r1, r2, r3, r4, r5, r6, r7, r8, r9⟩ := this.2.2 hne
    refine ⟨q, v, vm, r1, r2, r3, r4, r5, r6, ?_, r8, r9⟩
    rintro ⟨c, hc⟩
    exact r7 ⟨c.val, fun x hx => by obtain ⟨y, hy, rfl⟩ := List.mem_map.1 hx; rw [hc y hy]⟩

omit cfg in
/-- **C88 (`Sum::new`, `WeightedSum::new`).** The value of an unfilled bin: zero, with zero variance. -/
theorem C88_sums {A T : Type} [Cfg] [Axis A] [RDefault T] {axes : A} {n : Nat} (hl : LawfulAxis axes n) :
    (∃ h : VecHistogram A (Sum T), VecHistogram.new axes = .ok h ∧ ∀ i, i < n → h.valueAtIndex i = some Sum.new) ∧
    (∃ h : VecHistogram A (WeightedSum T), VecHistogram.new axes = .ok h ∧ ∀ i, i < n → h.valueAtIndex i = some WeightedSum.new) ∧
    (Sum.new : Sum T).get = RDefault.dflt ∧ (Sum.new : Sum T).variance = RDefault.dflt ∧
    (WeightedSum.new : WeightedSum T).get = RDefault.dflt ∧ (WeightedSum.new : WeightedSum T).variance = RDefault.dflt := by
  obtain ⟨h₁, b1, -, -, b4⟩ := C26_new (V := Sum T) hl
  obtain ⟨h₂, c1, -, -, c4⟩ := C26_new (V := WeightedSum T) hl
  exact ⟨⟨h₁, b1, fun i hi => by rw [b4, if_pos hi]; rfl⟩, ⟨h₂, c1, fun i hi => by rw [c4, if_pos hi]; rfl⟩, rfl, rfl, rfl, rfl⟩
end
end NdHist
