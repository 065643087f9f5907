import Verif.Props.Batch
import Verif.Props.FloatExact
/-!
# C90, continued: repeated samples and weights; floating-point counters
-/
namespace NdHist
open RNum
section
variable {A V : Type} [Cfg] [Axis A]

/-- a bin after calls that did not panic -/
theorem bin_after {h : VecHistogram A V} {calls : List (Call V (Axis.Coordinate A))} (hok : (h.callAll calls).2 = none) {i : Nat} {v v' : V} (hv : h.valueAtIndex i = some v)
    (hv' : (h.callAll calls).1.valueAtIndex i = some v') : fillSeq (callsIn h.axes i calls) v = (v', none) := by
  induction calls generalizing h v with
  | nil =>
    have : h.valueAtIndex i = some v' := hv'
    rw [hv] at this; cases this; rfl
  | cons c cs ih =>
    have hget := VecHistogram.call_get h c i
    have haxes := VecHistogram.call_axes h c
    rw [VecHistogram.callAll] at hok hv'
    by_cases hi : Axis.index h.axes c.coord = .ok (some i)
    · have hcall := VecHistogram.call_some hi hv
      rcases hcv : c.on v with ⟨w, _ | p⟩
      · rcases hh : h.call c with ⟨h', q⟩
        rw [hh] at hget haxes hok hv'
        have hq : q = none := by rw [hh, hcv] at hcall; exact (Prod.mk.inj hcall).2
        subst hq
        simp only at hok hv' haxes hget
        rw [if_pos hi, hv, Option.map_some, hcv] at hget
        have := ih hok hget hv'
        unfold callsIn at this ⊢
        rw [List.filter_cons_of_pos (by simpa using hi), fillSeq, hcv]
        rw [haxes] at this
        exact this
      · rw [hcall, hcv] at hok; cases hok
    · rcases hh : h.call c with ⟨h', _ | q⟩
      · rw [hh] at hget haxes hok hv'
        simp only at hok hv' haxes hget
        rw [if_neg hi, hv] at hget
        have := ih hok hget hv'
        unfold callsIn at this ⊢
        rw [List.filter_cons_of_neg (by simpa using hi)]
        rw [haxes] at this
        exact this
      · rw [hh] at hok; cases hok

/-- the part of a table in a bin -/
def tableIn {X : Type} (axes : A) (i : Nat) (coord : X → Axis.Coordinate A) (l : List X) : List X := l.filter fun x => Axis.index axes (coord x) = .ok (some i)

theorem callsIn_map {X : Type} (axes : A) (i : Nat) (coord : X → Axis.Coordinate A) (f : X → Call V (Axis.Coordinate A)) (hf : ∀ x, (f x).coord = coord x) (l : List X) :
    callsIn axes i (l.map f) = (tableIn axes i coord l).map f := by
  unfold callsIn tableIn
  rw [List.filter_map]
  congr 1
  apply List.filter_congr
  intro x _
  simp [hf]

theorem tableIn_oneByOne {X : Type} (axes : A) (i : Nat) (coord : X → Axis.Coordinate A) (t : List (X × ℕ)) :
    tableIn axes i coord (oneByOne t) = oneByOne (tableIn axes i (fun b => coord b.1) t) := by
  induction t with
  | nil => rfl
  | cons b t ih =>
    have e : oneByOne (b :: t) = List.replicate b.2 b.1 ++ oneByOne t := rfl
    have e' : tableIn axes i coord (oneByOne (b :: t)) = (List.replicate b.2 b.1).filter (fun x => Axis.index axes (coord x) = .ok (some i)) ++ tableIn axes i coord (oneByOne t) := by
      rw [e]; exact List.filter_append ..
    rw [e', ih, List.filter_replicate]
    by_cases hb : Axis.index axes (coord b.1) = .ok (some i)
    · rw [if_pos (by simpa using hb)]
      have : tableIn axes i (fun b => coord b.1) (b :: t) = b :: tableIn axes i (fun b => coord b.1) t := List.filter_cons_of_pos (by simpa using hb)
      rw [this]; rfl
    · rw [if_neg (by simpa using hb)]
      have : tableIn axes i (fun b => coord b.1) (b :: t) = tableIn axes i (fun b => coord b.1) t := List.filter_cons_of_neg (by simpa using hb)
      rw [this]; rfl
end

theorem sum_oneByOne {X K : Type} [Field K] (g : X → K) (t : List (X × ℕ)) : ((oneByOne t).map g).sum = (t.map fun b => b.2 * g b.1).sum := by
  induction t with
  | nil => rfl
  | cons b t ih =>
    have e : oneByOne (b :: t) = List.replicate b.2 b.1 ++ oneByOne t := rfl
    rw [e, List.map_append, List.sum_append, ih, List.map_replicate, List.sum_replicate, List.map_cons, List.sum_cons, nsmul_eq_mul]

theorem length_oneByOne {X : Type} (t : List (X × ℕ)) : (oneByOne t).length = (t.map (·.2)).sum := by
  induction t with
  | nil => rfl
  | cons b t ih =>
    have e : oneByOne (b :: t) = List.replicate b.2 b.1 ++ oneByOne t := rfl
    rw [e, List.length_append, List.length_replicate, ih, List.map_cons, List.sum_cons]

theorem countP_oneByOne {X : Type} (p : X → Bool) (t : List (X × ℕ)) : (oneByOne t).countP p = ((t.filter fun b => p b.1).map (·.2)).sum := by
  induction t with
  | nil => rfl
  | cons b t ih =>
    have e : oneByOne (b :: t) = List.replicate b.2 b.1 ++ oneByOne t := rfl
    rw [e, List.countP_append, ih, List.countP_replicate]
    by_cases hp : p b.1 = true
    · rw [List.filter_cons_of_pos (p := fun b : X × ℕ => p b.1) hp, if_pos hp, List.map_cons, List.sum_cons]
    · rw [List.filter_cons_of_neg (p := fun b : X × ℕ => p b.1) hp, if_neg hp, zero_add]

theorem fillSeq_coord {V C C' X : Type} (f : X → Call V C) (f' : X → Call V C') (h : ∀ x, (f x).on = (f' x).on) (l : List X) (v : V) : fillSeq (l.map f) v = fillSeq (l.map f') v := by
  induction l generalizing v with
  | nil => rfl
  | cons x l ih =>
    simp only [List.map_cons, fillSeq, h]
    rcases (f' x).on v with ⟨w, _ | p⟩
    · exact ih w
    · rfl

section
variable {A : Type} [Cfg] [Axis A] {T C W C' K : Type} [Field K] [LinearOrder K] [IsStrictOrderedRing K] [FloorRing K]
  [RNum T] [RNum C] [RNum W] [RNum C'] [RFrom T K] [RFrom C K] [RFrom W K] [RFrom C' K] [Faithful T K] [Faithful C K] [Faithful W K] [Faithful C' K]

omit [FloorRing K] in
/-- C90 (`WeightedSum`): replacing `n` calls `fill(c)` by one `fill_with(c, n)` leaves `get` of every bin as it is; the variance was the number of fills and becomes the sum of the squares. -/
theorem C90_weighted_sum {axes : A} {n : Nat} (hl : LawfulAxis axes n) {h : VecHistogram A (WeightedSum T)} (hnew : VecHistogram.new axes = .ok h) (table : List ((Axis.Coordinate A × T) × ℕ))
    (hw : ∀ b ∈ table, (RFrom.conv b.1.2 : K) = b.2) (h1 : (h.callAll ((oneByOne table).map fun x => .fill x.1)).2 = none) (h2 : (h.callAll (table.map fun b => .fillWith b.1.1 b.1.2)).2 = none)
    {i : Nat} {v v' : WeightedSum T} (hv : (h.callAll ((oneByOne table).map fun x => .fill x.1)).1.valueAtIndex i = some v)
    (hv' : (h.callAll (table.map fun b => .fillWith b.1.1 b.1.2)).1.valueAtIndex i = some v') :
    (RFrom.conv v'.get : K) = RFrom.conv v.get ∧ (RFrom.conv v.variance : K) = RFrom.conv v.get ∧
    (RFrom.conv v'.variance : K) = ((table.filter fun b => Axis.index axes b.1.1 = .ok (some i)).map fun b => (b.2 : K) ^ 2).sum := by
  obtain ⟨h', n1, n2, n3, n4⟩ := C26_new (V := WeightedSum T) hl
  rw [hnew] at n1; cases n1
  have hi : h.valueAtIndex i = some WeightedSum.new := by
    have hlen := VecHistogram.callAllCaught_length h (table.map fun b => .fillWith b.1.1 b.1.2)
    rw [← VecHistogram.callAll_ok h2] at hlen
    have : i < n := by
      rw [← n2.size, ← hlen]
      exact (List.getElem?_eq_some_iff.1 hv').1
    rw [n4, if_pos this]; rfl
  have e1 := bin_after h1 hi hv
  have e2 := bin_after h2 hi hv'
  rw [n3, callsIn_map axes i (fun x : Axis.Coordinate A × T => x.1) _ (fun _ => rfl), tableIn_oneByOne] at e1
  rw [n3, callsIn_map axes i (fun b : (Axis.Coordinate A × T) × ℕ => b.1.1) _ (fun _ => rfl)] at e2
  set t := tableIn axes i (fun b : (Axis.Coordinate A × T) × ℕ => b.1.1) table with ht
  have hwt : ∀ b ∈ t, (RFrom.conv b.1.2 : K) = b.2 := fun b hb => hw b (List.mem_filter.1 hb).1
  rw [fillSeq_coord (fun x : Axis.Coordinate A × T => Call.fill x.1) (fun _ => (Call.fill () : Call (WeightedSum T) Unit)) (fun _ => rfl), List.map_const'] at e1
  rw [fillSeq_coord (fun b : (Axis.Coordinate A × T) × ℕ => Call.fillWith b.1.1 b.1.2) (fun b => (Call.fillWith () b.1.2 : Call (WeightedSum T) Unit)) (fun _ => rfl)] at e2
  have e2' : fillSeq ((t.map fun b => b.1.2).map fun w => (Call.fillWith () w : Call (WeightedSum T) Unit)) WeightedSum.new = (v', none) := by
    rw [List.map_map]; exact e2
  obtain ⟨a1, a2⟩ := C40_weighted_sum_unit (K := K) _ e1
  obtain ⟨b1, b2, _⟩ := C40_weighted_sum (K := K) _ e2'
  rw [length_oneByOne] at a1 a2
  refine ⟨?_, by rw [a1, a2], ?_⟩
  · rw [b1, a1, List.map_map, Nat.cast_list_sum, List.map_map]
    congr 1
    exact List.map_congr_left fun b hb => hwt b hb
  · rw [b2, List.map_map]
    congr 1
    exact List.map_congr_left fun b hb => by simp [hwt b hb]

attribute [local instance] exactNum exactAbs in
/-- C90 (means): a `WeightedMean` histogram filled with samples weighted by their multiplicities and a `Mean` histogram filled with the same samples one by one have, in every bin with a sample, the same
`get` and `variance_of_samples`. `num_samples` is the number of weighted samples for the one and of the samples for the other, and `variance_of_mean` is the variance of the samples times the sum of the
squared multiplicities over the squared number of samples for the one and over the number of samples for the other. -/
theorem C90_means {axes : A} {n : Nat} (hl : LawfulAxis axes n) [RMulBy T W] [FaithfulMul T W K] {h : VecHistogram A (Mean T K C)} (hnew : VecHistogram.new axes = .ok h)
    {h' : VecHistogram A (WeightedMean T W K C')} (hnew' : VecHistogram.new axes = .ok h') (table : List ((Axis.Coordinate A × T × W) × ℕ))
    (hw : ∀ b ∈ table, (RFrom.conv b.1.2.2 : K) = b.2) (h1 : (h.callAll ((oneByOne table).map fun x => .fillWith x.1 x.2.1)).2 = none)
    (h2 : (h'.callAll (table.map fun b => .fillWithWeighted b.1.1 b.1.2.1 b.1.2.2)).2 = none)
    {i : Nat} {v : Mean T K C} {v' : WeightedMean T W K C'} (hv : (h.callAll ((oneByOne table).map fun x => .fillWith x.1 x.2.1)).1.valueAtIndex i = some v)
    (hv' : (h'.callAll (table.map fun b => .fillWithWeighted b.1.1 b.1.2.1 b.1.2.2)).1.valueAtIndex i = some v') :
    let ns : List ℕ := (table.filter fun b => Axis.index axes b.1.1 = .ok (some i)).map (·.2)
    0 < ns.sum → ∃ μ σ2 : K, v.get = .ok μ ∧ v'.get = .ok μ ∧ v.varianceOfSamples = .ok σ2 ∧ v'.varianceOfSamples = .ok σ2 ∧
      (RFrom.conv v.numSamples : K) = ns.sum ∧ (RFrom.conv v'.numSamples : K) = ns.length ∧
      v.varianceOfMean = .ok (σ2 / ns.sum) ∧ v'.varianceOfMean = .ok (σ2 * (ns.map fun m : ℕ => (m : K) ^ 2).sum / (ns.sum : K) ^ 2) := by
  intro ns hpos
  obtain ⟨g, n1, n2, n3, n4⟩ := C26_new (V := Mean T K C) hl
  rw [hnew] at n1; cases n1
  obtain ⟨g', m1, m2, m3, m4⟩ := C26_new (V := WeightedMean T W K C') hl
  rw [hnew'] at m1; cases m1
  have hlt : i < n := by
    have hlen := VecHistogram.callAllCaught_length h' (table.map fun b => .fillWithWeighted b.1.1 b.1.2.1 b.1.2.2)
    rw [← VecHistogram.callAll_ok h2] at hlen
    rw [← m2.size, ← hlen]
    exact (List.getElem?_eq_some_iff.1 hv').1
  have hi : h.valueAtIndex i = some RDefault.dflt := by rw [n4, if_pos hlt]
  have hi' : h'.valueAtIndex i = some RDefault.dflt := by rw [m4, if_pos hlt]
  have e1 := bin_after h1 hi hv
  have e2 := bin_after h2 hi' hv'
  rw [n3, callsIn_map axes i (fun x : Axis.Coordinate A × T × W => x.1) _ (fun _ => rfl), tableIn_oneByOne] at e1
  rw [m3, callsIn_map axes i (fun b : (Axis.Coordinate A × T × W) × ℕ => b.1.1) _ (fun _ => rfl)] at e2
  have hns : ns = (tableIn axes i (fun b : (Axis.Coordinate A × T × W) × ℕ => b.1.1) table).map (·.2) := rfl
  set t := tableIn axes i (fun b : (Axis.Coordinate A × T × W) × ℕ => b.1.1) table with ht
  clear_value ns
  have hwt : ∀ b ∈ t, (RFrom.conv b.1.2.2 : K) = b.2 := fun b hb => hw b (List.mem_filter.1 hb).1
  rw [fillSeq_coord (fun x : Axis.Coordinate A × T × W => Call.fillWith x.1 x.2.1) (fun x => (Call.fillWith () x.2.1 : Call (Mean T K C) Unit)) (fun _ => rfl)] at e1
  rw [fillSeq_coord (fun b : (Axis.Coordinate A × T × W) × ℕ => Call.fillWithWeighted b.1.1 b.1.2.1 b.1.2.2) (fun b => (Call.fillWithWeighted () b.1.2.1 b.1.2.2 : Call (WeightedMean T W K C') Unit)) (fun _ => rfl)] at e2
  have e1' : fillSeq (((oneByOne t).map fun x => x.2.1).map fun x => (Call.fillWith () x : Call (Mean T K C) Unit)) RDefault.dflt = (v, none) := by
    rw [List.map_map]; exact e1
  have e2' : fillSeq ((t.map fun b => b.1.2).map fun x => (Call.fillWithWeighted () x.1 x.2 : Call (WeightedMean T W K C') Unit)) RDefault.dflt = (v', none) := by
    rw [List.map_map]; exact e2
  have hlen : (oneByOne t).length = ns.sum := by rw [length_oneByOne, hns]
  have hne : (oneByOne t).map (fun x => x.2.1) ≠ [] := by
    intro h0
    have := congrArg List.length h0
    rw [List.length_map, hlen] at this
    simp at this; omega
  obtain ⟨a1, a2, a3, a4, _⟩ := C41_mean (K := K) _ hne e1'
  have hb := C42_weighted_mean (K := K) _ e2'
  simp only [List.map_map, List.length_map] at a1 a2 a3 a4 hb
  have hys : (t.map ((fun x : T × W => ((RFrom.conv x.1 : K), (RFrom.conv x.2 : K))) ∘ fun b => b.1.2)) = t.map fun b => ((RFrom.conv b.1.2.1 : K), (b.2 : K)) :=
    List.map_congr_left fun b hb => by simp [hwt b hb]
  rw [hys] at hb
  set ys : List (K × K) := t.map fun b => ((RFrom.conv b.1.2.1 : K), (b.2 : K)) with hysd
  have htw : totalWeight ys = (ns.sum : K) := by
    simp only [totalWeight, hysd, hns, List.map_map, Nat.cast_list_sum]; rfl
  have hn0 : (ns.sum : K) ≠ 0 := by exact_mod_cast hpos.ne'
  obtain ⟨b1, b2, b3, b4, _⟩ := hb (by rw [htw]; exact hn0)
  set xs : List K := (oneByOne t).map ((fun x => (RFrom.conv x : K)) ∘ fun x => x.2.1) with hxs
  have hxl : (xs.length : K) = ns.sum := by rw [hxs, List.length_map, hlen]
  have hμ : avg xs = wavg ys := by
    unfold avg wavg
    rw [hxl, htw, hxs, sum_oneByOne, hysd, List.map_map]
    rfl
  have hσ : avg (xs.map fun y => (y - avg xs) ^ 2) = wvar ys := by
    unfold wvar
    rw [hμ]
    unfold avg
    rw [List.length_map, hxl, htw, hxs, List.map_map, sum_oneByOne, hysd, List.map_map]
    rfl
  refine ⟨avg xs, avg (xs.map fun y => (y - avg xs) ^ 2), a1, by rw [hμ]; exact b1, ?_, by rw [hσ]; exact b3, by rw [a2, hlen], by rw [b2, hns, List.length_map], ?_, ?_⟩
  · rw [a3, hxs, List.map_map]
  · rw [a4, hlen, hxs, List.map_map]
  · rw [b4, hσ, htw, hns, List.map_map]
    congr 3
    refine congrArg List.sum (List.map_congr_left fun b hb => ?_)
    simp [hwt b hb]

omit [LinearOrder K] [IsStrictOrderedRing K] [FloorRing K] [Axis A] in
/-- C90 (`WeightedSum`): two calls `fill(c)` and one call `fill_with(c, 2)` do not have the same variance. -/
theorem C90_counterexample_weighted_sum [CharZero K] (c : A) (two : T) (ht : (RFrom.conv two : K) = 2) {s s' : WeightedSum T}
    (h : fillSeq [(.fill c : Call (WeightedSum T) A), .fill c] WeightedSum.new = (s, none)) (h' : fillSeq [(.fillWith c two : Call (WeightedSum T) A)] WeightedSum.new = (s', none)) :
    (RFrom.conv s.variance : K) = 2 ∧ (RFrom.conv s'.variance : K) = 4 ∧ s.variance ≠ s'.variance := by
  have e : fillSeq (List.replicate 2 (.fill () : Call (WeightedSum T) Unit)) WeightedSum.new = (s, none) := by
    rw [← h]; exact fillSeq_coord (fun _ : Unit => (.fill () : Call (WeightedSum T) Unit)) (fun _ => .fill c) (fun _ => rfl) [(), ()] _
  have a := (C40_weighted_sum_unit (K := K) 2 e).2
  have e' : fillSeq ([two].map fun w => (.fillWith () w : Call (WeightedSum T) Unit)) WeightedSum.new = (s', none) := by
    rw [← h']; exact fillSeq_coord (fun w : T => (.fillWith () w : Call (WeightedSum T) Unit)) (fun w => .fillWith c w) (fun _ => rfl) [two] _
  have b : (RFrom.conv s'.variance : K) = 4 := by
    have := fillSeq_adds (μ := wsMeasure (T := T) K) _ (fun w => ((RFrom.conv w : K), (RFrom.conv w : K) ^ 2)) (fun w _ => weightedSum_fillWith_adds (K := K) w) e'
    have h0 : wsMeasure K (WeightedSum.new : WeightedSum T) = 0 := Prod.ext Faithful.zero Faithful.zero
    rw [h0, zero_add] at this
    have := congrArg Prod.snd this
    simp only [List.map_cons, List.map_nil, List.sum_cons, List.sum_nil, add_zero, ht] at this
    refine this.trans ?_
    norm_num
  refine ⟨by exact_mod_cast a, b, fun he => ?_⟩
  rw [he, b] at a
  norm_num at a
end

section
variable [cfg : Cfg] {F : FFmt} {A : Type} [Axis A] {axes : A} {n : Nat} {covers : Axis.Interval A → Axis.Coordinate A → Prop} {dom : Axis.Coordinate A → Prop}

open Classical in
/-- C90 (floating-point counters): one `fill_with(c, n)` in place of `n` calls `fill(c)` gives the same counts in all bins with at most `2^p` entries. (Above, single fills no longer count.) -/
theorem C90_float (hf : FaithfulAxis axes n covers dom) {h : VecHistogram A (Flt F)} (hnew : VecHistogram.new axes = .ok h) (table : List ((Axis.Coordinate A × Flt F) × ℕ))
    (hd : ∀ b ∈ table, dom b.1.1) (hw : ∀ b ∈ table, b.1.2.isFin ∧ b.1.2.val = b.2) :
    ∃ g g' items items', h.callAll ((oneByOne table).map fun x => .fill x.1) = (g, none) ∧ h.callAll (table.map fun b => .fillWith b.1.1 b.1.2) = (g', none) ∧
      g.iter = .ok items ∧ g'.iter = .ok items' ∧ items.length = n ∧ items'.length = n ∧ ∀ (i : ℕ) it it', items[i]? = some it → items'[i]? = some it' → it.bin = it'.bin ∧
        ∀ N : ℕ, N = ((table.filter fun b => covers it.bin b.1.1).map (·.2)).sum →
          it.value.isFin ∧ it.value.val = min (N : ℚ) (2 ^ F.p) ∧ ((N : ℚ) ≤ 2 ^ F.p → it'.value.isFin ∧ it'.value.val = N) := by
  have hd1 : ∀ c ∈ (oneByOne table).map (·.1), dom c := by
    intro c hc
    obtain ⟨x, hx, rfl⟩ := List.mem_map.1 hc
    obtain ⟨b, hb, hx⟩ := List.mem_flatMap.1 hx
    rw [(List.mem_replicate.1 hx).2]
    exact hd b hb
  have h0 : F.qmin ≤ 0 := by unfold FFmt.qmin; have := F.emin_le; have := F.p_ge; omega
  obtain ⟨g, items, a1, a2, a3, a4⟩ := C74_counts hf hnew ((oneByOne table).map (·.1)) hd1
  obtain ⟨g', items', b1, b2, b3, b4⟩ := C74_dense (e := 0) ⟨h0, by have := F.emax_ge; omega⟩ hf hnew (table.map fun b => (b.1.1, some b.1.2)) (by
      intro cw hcw
      obtain ⟨b, hb, rfl⟩ := List.mem_map.1 hcw
      exact hd b hb)
    (by
      intro cw hcw w hw'
      obtain ⟨b, hb, rfl⟩ := List.mem_map.1 hcw
      cases hw'
      exact (hw b hb).1)
    (by
      intro cw hcw
      obtain ⟨b, hb, rfl⟩ := List.mem_map.1 hcw
      exact ⟨b.2, by simp [fltWeight, (hw b hb).2]⟩)
  refine ⟨g, g', items, items', by rw [← a1, List.map_map]; rfl, by rw [← b1]; unfold numCalls; rw [List.map_map]; rfl, a2, b2, a3, b3, ?_⟩
  intro i it it' hi hi'
  obtain ⟨_, c1, c2, c3⟩ := a4 i it hi
  obtain ⟨_, d1, d2⟩ := b4 i it' hi'
  have hbin : it.bin = it'.bin := by rw [c1] at d1; simpa using d1
  refine ⟨hbin, fun N hN => ⟨c2, ?_, fun hle => ?_⟩⟩
  · rw [c3, hN, List.countP_map]
    congr 2
    exact countP_oneByOne (fun x : Axis.Coordinate A × Flt F => decide (covers it.bin x.1)) table
  · rw [← hbin] at d2
    have hN' : (((table.filter fun b => covers it.bin b.1.1).map fun b => (b.2 : ℚ))).sum = N := by
      rw [hN, Nat.cast_list_sum, List.map_map]; rfl
    have e1 : fltTotalIn covers it.bin (table.map fun b => (b.1.1, some b.1.2)) = N := by
      unfold fltTotalIn
      rw [← hN', List.filter_map, List.map_map]
      refine congrArg List.sum (List.map_congr_left fun b hb => ?_)
      simp [fltWeight, (hw b (List.mem_filter.1 hb).1).2]
    have e2 : fltAbsIn covers it.bin (table.map fun b => (b.1.1, some b.1.2)) = N := by
      unfold fltAbsIn
      rw [← hN', List.filter_map, List.map_map]
      refine congrArg List.sum (List.map_congr_left fun b hb => ?_)
      simp [fltWeight, (hw b (List.mem_filter.1 hb).1).2]
    rw [e1, e2] at d2
    exact d2 (by rw [zero_add, zpow_natCast]; exact hle)
end

section
variable [cfg : Cfg] {A : Type} [Axis A] {τ : IntTy}

omit [Axis A] in
theorem counts_batches {C : Type} (table : List (C × MInt τ)) :
    ((table.map fun b => ((.fillWith b.1 b.2 : Call (MInt τ) C), List.replicate b.2.val.toNat (.fill b.1 : Call (MInt τ) C))).map (·.1) = table.map fun b => .fillWith b.1 b.2) ∧
    (table.map fun b => ((.fillWith b.1 b.2 : Call (MInt τ) C), List.replicate b.2.val.toNat (.fill b.1 : Call (MInt τ) C))).flatMap (·.2) =
      (oneByOne (table.map fun b => (b.1, b.2.val.toNat))).map .fill := by
  refine ⟨by rw [List.map_map]; rfl, ?_⟩
  induction table with
  | nil => rfl
  | cons b t ih =>
    have e : oneByOne ((b :: t).map fun b => (b.1, b.2.val.toNat)) = List.replicate b.2.val.toNat b.1 ++ oneByOne (t.map fun b => (b.1, b.2.val.toNat)) := rfl
    rw [e, List.map_append, ← ih, List.map_replicate, List.map_cons, List.flatMap_cons]

/-- C90 (counting from a table, dense): a histogram of integers filled by `fill_with(c, n)` for each row of a table of coordinates and positive multiplicities panics exactly if it does when every
coordinate is filled `n` times, and otherwise is the same histogram; for every axis, and every histogram to start from. -/
theorem C90_counts (table : List (Axis.Coordinate A × MInt τ)) (hpos : ∀ b ∈ table, 0 < b.2.val) (h : VecHistogram A (MInt τ)) :
    ((h.callAll (table.map fun b => .fillWith b.1 b.2)).2 = none ↔ (h.callAll ((oneByOne (table.map fun b => (b.1, b.2.val.toNat))).map .fill)).2 = none) ∧
    ((h.callAll (table.map fun b => .fillWith b.1 b.2)).2 = none → h.callAll (table.map fun b => .fillWith b.1 b.2) = h.callAll ((oneByOne (table.map fun b => (b.1, b.2.val.toNat))).map .fill)) := by
  have := C90_batch (table.map fun b => ((.fillWith b.1 b.2 : Call (MInt τ) _), List.replicate b.2.val.toNat (.fill b.1))) (by
    intro b hb
    obtain ⟨x, hx, rfl⟩ := List.mem_map.1 hb
    exact C90_int_fills x.1 x.2 (hpos x hx)) h
  rwa [(counts_batches table).1, (counts_batches table).2] at this

/-- C90 (counting from a table, sparse): likewise. -/
theorem C90_counts_sparse (table : List (Axis.Coordinate A × MInt τ)) (hpos : ∀ b ∈ table, 0 < b.2.val) (h : HashHistogram A (MInt τ)) :
    ((h.callAll (table.map fun b => .fillWith b.1 b.2)).2 = none ↔ (h.callAll ((oneByOne (table.map fun b => (b.1, b.2.val.toNat))).map .fill)).2 = none) ∧
    ((h.callAll (table.map fun b => .fillWith b.1 b.2)).2 = none → h.callAll (table.map fun b => .fillWith b.1 b.2) = h.callAll ((oneByOne (table.map fun b => (b.1, b.2.val.toNat))).map .fill)) := by
  have := C90_batch_sparse (table.map fun b => ((.fillWith b.1 b.2 : Call (MInt τ) _), List.replicate b.2.val.toNat (.fill b.1))) (by
    intro b hb
    obtain ⟨x, hx, rfl⟩ := List.mem_map.1 hb
    exact C90_int_fills x.1 x.2 (hpos x hx)) h
  rwa [(counts_batches table).1, (counts_batches table).2] at this

/-- C90 (multiplicity zero, dense): `fill_with(c, 0)` does nothing. -/
theorem C90_zero (h : VecHistogram A (MInt τ)) (c : Axis.Coordinate A) (z : MInt τ) (hz : z.val = 0) (ht : IndexTotal h.axes c) : h.fillWith c z = (h, none) := by
  have e : h.fillWith c z = h.call (.fillWith c z) := rfl
  obtain ⟨o, ho⟩ := ht
  rw [e]
  rcases o with _ | i
  · exact VecHistogram.call_none ho
  · cases hv : h.valueAtIndex i with
    | none => exact VecHistogram.call_out ho hv
    | some v =>
      rw [VecHistogram.call_some ho hv]
      have hon : ∀ v : MInt τ, (Call.fillWith c z : Call (MInt τ) (Axis.Coordinate A)).on v = (v, none) := by
        intro v
        show addAssign z v = _
        rw [addAssign_eq, MInt.add_def]
        have hr : InRange τ (v.val + z.val) := by rw [hz, add_zero]; exact v.inRange
        rw [MInt.arith_ok hr.1 hr.2]
        refine Prod.ext (MInt.ext ?_) rfl
        simp [hz]
      simp only [hon]
      have : h.values.modify i (fun v => v) = h.values := List.modify_id i h.values
      rw [this]

/-- C90 (multiplicity zero, sparse): `fill_with(c, 0)` stores the bin of `c`, which no fill does not. -/
theorem C90_counterexample_zero_sparse (axes : A) (c : Axis.Coordinate A) {i : Nat} (hi : Axis.index axes c = .ok (some i)) (z : MInt τ) :
    ((HashHistogram.new axes : HashHistogram A (MInt τ)).valueAtIndex i = none) ∧ ((HashHistogram.new axes : HashHistogram A (MInt τ)).fillWith c z).1.valueAtIndex i ≠ none := by
  refine ⟨rfl, ?_⟩
  have e : (HashHistogram.new axes : HashHistogram A (MInt τ)).fillWith c z = (HashHistogram.new axes : HashHistogram A (MInt τ)).call (.fillWith c z) := rfl
  rw [e, HashHistogram.call_get]
  have hi' : Axis.index (HashHistogram.new axes : HashHistogram A (MInt τ)).axes (Call.fillWith c z : Call (MInt τ) (Axis.Coordinate A)).coord = .ok (some i) := hi
  rw [if_pos hi']
  simp
end
end NdHist
