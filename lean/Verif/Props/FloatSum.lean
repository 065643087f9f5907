import Verif.Props.MergeTree
import Verif.Lemmas.UniformFloatBins
/-!
# C57: rounding errors of accumulated floats
-/
namespace NdHist
open RNum

/-! ## Error bounds for sums of floats -/

section
variable {F : FFmt}

/-- `v` is the result of summing up with rounding: `S` the exact sum, `A` the sum of absolute values, `k` the number of roundings in a row, `E` the sum of the
errors the summands had from the start. -/
structure Near (k : Nat) (v : Flt F) (S A E : ℚ) : Prop where
  fin : v.isFin
  err : |v.val - S| ≤ ((1 + F.u) ^ k - 1) * A + (1 + F.u) ^ k * E
  abs : |S| ≤ A
  nonneg : 0 ≤ E

theorem one_le_growth (k : Nat) : 1 ≤ (1 + F.u) ^ k := one_le_pow₀ (by have := F.u_pos; linarith)

theorem growth_mono {k l : Nat} (h : k ≤ l) : (1 + F.u) ^ k ≤ (1 + F.u) ^ l :=
  pow_le_pow_right₀ (by have := F.u_pos; linarith) h

theorem Near.A_nonneg {k : Nat} {v : Flt F} {S A E : ℚ} (h : Near k v S A E) : 0 ≤ A := (abs_nonneg _).trans h.abs

theorem Near.mono {k l : Nat} {v : Flt F} {S A E : ℚ} (h : Near k v S A E) (hkl : k ≤ l) : Near l v S A E := by
  refine ⟨h.fin, h.err.trans ?_, h.abs, h.nonneg⟩
  have g := growth_mono (F := F) hkl
  have hA := h.A_nonneg
  have hE := h.nonneg
  have a1 := mul_le_mul_of_nonneg_right g hA
  have a2 := mul_le_mul_of_nonneg_right g hE
  linarith

theorem Near.exact {v : Flt F} (hv : v.isFin) : Near 0 v v.val |v.val| 0 := by
  refine ⟨hv, by simp, le_rfl, le_rfl⟩

theorem Near.abs_val {k : Nat} {v : Flt F} {S A E : ℚ} (h : Near k v S A E) : |v.val| ≤ (1 + F.u) ^ k * (A + E) := by
  have h1 : |v.val| ≤ |v.val - S| + |S| := by
    have := abs_add_le (v.val - S) S; rwa [sub_add_cancel] at this
  have := h.err; have := h.abs
  linarith

/-- one addition -/
theorem Near.add {k j : Nat} {v w : Flt F} {S T A B E E' : ℚ} (hv : Near k v S A E) (hw : Near j w T B E')
    (hr : (1 + F.u) ^ max k j * (A + B + (E + E')) ≤ F.maxFin) : Near (max k j + 1) (Flt.add v w) (S + T) (A + B) (E + E') := by
  have hv' := hv.mono (le_max_left k j)
  have hw' := hw.mono (le_max_right k j)
  set m := max k j
  set g := (1 + F.u) ^ m with hg
  have u0 := F.u_pos
  have hg1 : 1 ≤ g := one_le_growth m
  have hsum : |v.val + w.val| ≤ g * (A + B + (E + E')) := by
    have h1 := hv'.abs_val; have h2 := hw'.abs_val
    have := abs_add_le v.val w.val
    calc |v.val + w.val| ≤ g * (A + E) + g * (B + E') := by linarith
      _ = _ := by ring
  obtain ⟨f1, f2⟩ := (Flt.add_rounds hv.fin hw.fin).fin_of (hsum.trans hr)
  refine ⟨f1, ?_, (abs_add_le _ _).trans (add_le_add hv.abs hw.abs), add_nonneg hv.nonneg hw.nonneg⟩
  have hrel := F.rs_rel_mult (v.val_mult.add w.val_mult)
  rw [← f2] at hrel
  have e1 : |v.val + w.val - (S + T)| ≤ (g - 1) * (A + B) + g * (E + E') := by
    have := abs_add_le (v.val - S) (w.val - T)
    have h1 := hv'.err; have h2 := hw'.err
    have e : v.val + w.val - (S + T) = v.val - S + (w.val - T) := by ring
    rw [e]
    calc _ ≤ _ := this
      _ ≤ ((g - 1) * A + g * E) + ((g - 1) * B + g * E') := add_le_add h1 h2
      _ = _ := by ring
  have e2 : |(Flt.add v w).val - (S + T)| ≤ |(Flt.add v w).val - (v.val + w.val)| + |v.val + w.val - (S + T)| := by
    have := abs_add_le ((Flt.add v w).val - (v.val + w.val)) (v.val + w.val - (S + T))
    rwa [sub_add_sub_cancel] at this
  have e3 : |v.val + w.val| * F.u ≤ g * (A + B + (E + E')) * F.u := mul_le_mul_of_nonneg_right hsum u0.le
  calc _ ≤ g * (A + B + (E + E')) * F.u + ((g - 1) * (A + B) + g * (E + E')) := by linarith
    _ = ((1 + F.u) ^ (m + 1) - 1) * (A + B) + (1 + F.u) ^ (m + 1) * (E + E') := by rw [pow_succ, ← hg]; ring

/-- adding to zero is exact -/
theorem Near.zero_add {j : Nat} {v w : Flt F} {T B E : ℚ} (hv : v.isFin) (h0 : v.val = 0) (hw : Near j w T B E) : Near j (Flt.add v w) T B E := by
  have hr := Flt.add_rounds hv hw.fin
  rw [h0, _root_.zero_add] at hr
  obtain ⟨f1, f2⟩ := hr.fin_of w.abs_val_le
  rw [Flt.rs_val] at f2
  exact ⟨f1, by rw [f2]; exact hw.err, hw.abs, hw.nonneg⟩

theorem Near.add_zero {k : Nat} {v w : Flt F} {S A E : ℚ} (hw : w.isFin) (h0 : w.val = 0) (hv : Near k v S A E) : Near k (Flt.add v w) S A E := by
  have hr := Flt.add_rounds hv.fin hw
  rw [h0, _root_.add_zero] at hr
  obtain ⟨f1, f2⟩ := hr.fin_of v.abs_val_le
  rw [Flt.rs_val] at f2
  exact ⟨f1, by rw [f2]; exact hv.err, hv.abs, hv.nonneg⟩

theorem sum_nonneg' {α : Type} (l : List α) (f : α → ℚ) (h : ∀ a ∈ l, 0 ≤ f a) : 0 ≤ (l.map f).sum := by
  apply List.sum_nonneg
  intro x hx
  obtain ⟨a, ha, rfl⟩ := List.mem_map.1 hx
  exact h a ha

/-- Summing up one after another, starting from a sum `v`. Each summand `a` stands for the exact `S a`, with an error of at most `E a`. -/
theorem near_foldl {α : Type} (x : α → Flt F) (S A E : α → ℚ) (l : List α) (hx : ∀ a ∈ l, Near 0 (x a) (S a) (A a) (E a))
    {k : Nat} {v : Flt F} {s b e : ℚ} (hv : Near k v s b e)
    (hr : (1 + F.u) ^ (k + l.length) * (b + (l.map A).sum + (e + (l.map E).sum)) ≤ F.maxFin) :
    Near (k + l.length) (l.foldl (fun v a => Flt.add v (x a)) v) (s + (l.map S).sum) (b + (l.map A).sum) (e + (l.map E).sum) := by
  induction l generalizing k v s b e with
  | nil => simpa using hv
  | cons a l ih =>
    have ha := hx a (List.mem_cons_self ..)
    have hl : ∀ a ∈ l, Near 0 (x a) (S a) (A a) (E a) := fun a h => hx a (List.mem_cons_of_mem _ h)
    simp only [List.map_cons, List.sum_cons, List.length_cons, List.foldl_cons] at hr ⊢
    have p1 := sum_nonneg' l A (fun a h => (hl a h).A_nonneg)
    have p2 := sum_nonneg' l E (fun a h => (hl a h).nonneg)
    have q1 := ha.A_nonneg; have q2 := ha.nonneg; have q3 := hv.A_nonneg; have q4 := hv.nonneg
    have h1 := hv.add ha (by
      refine le_trans ?_ hr
      apply mul_le_mul (growth_mono (by omega)) (by linarith) (by linarith)
      exact (zero_le_one.trans (one_le_growth _)))
    rw [Nat.max_zero] at h1
    have h2 := ih hl h1 (by
      rw [show k + 1 + l.length = k + (l.length + 1) by omega]
      convert hr using 2; ring)
    rw [show k + 1 + l.length = k + (l.length + 1) by omega] at h2
    convert h2 using 1 <;> ring

/-- Summing up one after another, starting from zero: the first addition is exact. -/
theorem near_sum {α : Type} (x : α → Flt F) (S A E : α → ℚ) (l : List α) (hx : ∀ a ∈ l, Near 0 (x a) (S a) (A a) (E a))
    (hr : (1 + F.u) ^ (l.length - 1) * ((l.map A).sum + (l.map E).sum) ≤ F.maxFin) {z : Flt F} (hz : z.isFin) (hz0 : z.val = 0) :
    Near (l.length - 1) (l.foldl (fun v a => Flt.add v (x a)) z) (l.map S).sum (l.map A).sum (l.map E).sum := by
  cases l with
  | nil => simpa [hz0] using Near.exact hz
  | cons a l =>
    have h1 := Near.zero_add hz hz0 (hx a (List.mem_cons_self ..))
    simp only [List.map_cons, List.sum_cons, List.length_cons, List.foldl_cons, Nat.add_sub_cancel] at hr ⊢
    have h2 := near_foldl x S A E l (fun a h => hx a (List.mem_cons_of_mem _ h)) h1 (by
      rw [Nat.zero_add]; exact hr)
    rwa [Nat.zero_add] at h2
end

/-! ## Histograms -/

/-- The number a call of `fill` (without weight) or `fill_with` (with weight) on a float histogram stands for. -/
def fltWeight {F : FFmt} {C : Type} (cw : C × Option (Flt F)) : ℚ :=
  match cw.2 with
  | none => 1
  | some w => w.val

section
variable [cfg : Cfg] {F : FFmt} {A V : Type} [Axis A] {axes : A} {n : Nat} {covers : Axis.Interval A → Axis.Coordinate A → Prop}
  {dom : Axis.Coordinate A → Prop}

/-- If no call panics on any value, a program filling a faithful axis does not panic. -/
theorem callAll_total [RDefault V] (hf : FaithfulAxis axes n covers dom) {h : VecHistogram A V} (hnew : VecHistogram.new axes = .ok h)
    {calls : List (Call V (Axis.Coordinate A))} (hd : ∀ call ∈ calls, dom call.coord) (ht : ∀ call ∈ calls, ∀ v, (call.on v).2 = none) :
    h.callAll calls = (h.callAllCaught calls, none) := by
  apply callAll_of_no_panic
  intro pre c post he
  obtain ⟨ok, hax, hval⟩ := C28_dense hf.lawful hnew pre
  obtain ⟨-, -, g1, g2, g3⟩ := C27_dense ok c
  rw [hax] at g1 g2 g3
  have hc : c ∈ calls := by rw [he]; simp
  obtain ⟨o, ho⟩ := hf.total c.coord (hd c hc)
  cases o with
  | none => rw [g2 ho]
  | some i =>
    obtain ⟨⟨v, hv, -, hp⟩, -⟩ := g1 i ho
    rw [hp]; exact ht c hc v

/-- the weight as a float -/
def fltAdd {C : Type} (cw : C × Option (Flt F)) : Flt F :=
  match cw.2 with
  | none => Flt.ofRat 1
  | some w => w

theorem fltAdd_near {C : Type} {cw : C × Option (Flt F)} (h : ∀ w, cw.2 = some w → w.isFin) :
    Near 0 (fltAdd cw) (fltWeight cw) |fltWeight cw| 0 := by
  obtain ⟨c, _ | w⟩ := cw
  · obtain ⟨o1, o2⟩ := Flt.ofNat_spec (F := F) (n := 1) (Nat.one_le_two_pow)
    rw [Nat.cast_one] at o1 o2
    have := Near.exact o1
    rwa [o2] at this
  · exact Near.exact (h w rfl)

theorem filledWith_flt {C : Type} (hist : List (C × Option (Flt F))) (v : Flt F) :
    filledWith (numCalls hist) v = hist.foldl (fun v cw => Flt.add v (fltAdd cw)) v := by
  unfold filledWith numCalls
  rw [List.foldl_map]
  congr 1
  funext v cw
  obtain ⟨c, _ | w⟩ := cw <;> rfl

theorem numCalls_coord {T C : Type} [RNum T] (hist : List (C × Option T)) (p : C → Bool) :
    (numCalls hist).filter (fun call => p call.coord) = numCalls (hist.filter fun cw => p cw.1) := by
  unfold numCalls
  rw [List.filter_map]
  congr 1
  apply List.filter_congr
  rintro ⟨c, _ | w⟩ _ <;> rfl

theorem numCalls_total {C : Type} {hist : List (C × Option (Flt F))} : ∀ call ∈ numCalls hist, ∀ v, (call.on v).2 = none := by
  intro call hc v
  obtain ⟨⟨c, _ | w⟩, -, rfl⟩ := List.mem_map.1 hc <;> rfl

theorem numCalls_dom {T C : Type} [RNum T] {hist : List (C × Option T)} {p : C → Prop} (h : ∀ cw ∈ hist, p cw.1) :
    ∀ call ∈ numCalls hist, p call.coord := by
  intro call hc
  obtain ⟨⟨c, _ | w⟩, hm, rfl⟩ := List.mem_map.1 hc <;> exact h _ hm

theorem sum_filter_le {α : Type} (l : List α) (f : α → ℚ) (p : α → Bool) (h : ∀ a ∈ l, 0 ≤ f a) :
    ((l.filter p).map f).sum ≤ (l.map f).sum := by
  induction l with
  | nil => simp
  | cons a l ih =>
    have h1 := ih fun a h' => h a (List.mem_cons_of_mem _ h')
    have h2 := h a (List.mem_cons_self ..)
    rw [List.filter_cons]
    split <;> simp only [List.map_cons, List.sum_cons] <;> linarith

theorem near_bin {C : Type} (hist : List (C × Option (Flt F))) (p : C × Option (Flt F) → Bool) (hfin : ∀ cw ∈ hist, ∀ w, cw.2 = some w → w.isFin)
    (hr : (1 + F.u) ^ hist.length * (hist.map fun cw => |fltWeight cw|).sum ≤ F.maxFin) :
    ((hist.filter p).foldl (fun v cw => Flt.add v (fltAdd cw)) (Flt.zero false)).isFin ∧
    |((hist.filter p).foldl (fun v cw => Flt.add v (fltAdd cw)) (Flt.zero false)).val - ((hist.filter p).map fltWeight).sum| ≤
      ((1 + F.u) ^ (hist.countP p - 1) - 1) * ((hist.filter p).map fun cw => |fltWeight cw|).sum := by
  set l := hist.filter p with hl
  have hle : l.length ≤ hist.length := List.length_filter_le _ _
  have hs : (l.map fun cw => |fltWeight cw|).sum ≤ (hist.map fun cw => |fltWeight cw|).sum := sum_filter_le _ _ _ (fun _ _ => abs_nonneg _)
  have hs0 := sum_nonneg' l (fun cw => |fltWeight cw|) (fun _ _ => abs_nonneg _)
  have key := near_sum (F := F) fltAdd fltWeight (fun cw => |fltWeight cw|) (fun _ => 0) l
    (fun cw hcw => fltAdd_near (hfin cw (List.mem_of_mem_filter hcw))) (by
      refine le_trans ?_ hr
      simp only [List.map_const', List.sum_replicate, smul_zero, add_zero]
      exact mul_le_mul (growth_mono (by omega)) hs hs0 (zero_le_one.trans (one_le_growth _))) (z := Flt.zero false) trivial rfl
  have he := key.err
  simp only [List.map_const', List.sum_replicate, smul_zero, mul_zero, add_zero] at he
  rw [List.countP_eq_length_filter]
  exact ⟨key.fin, he⟩

open Classical in
/-- **C57.** Filling a float histogram with any finite weights, if their absolute values add up to a number in range (with a margin for the roundings): the program
does not panic, every bin is finite, and differs from the exact sum of the weights of the coordinates its interval contains, `k` in number, by at most
`((1 + u)^(k-1) - 1)` times the sum of their absolute values; `u` is the unit roundoff, `2^-53` for `f64`. In particular, bins with at most one entry are exact. -/
theorem C57_dense (hf : FaithfulAxis axes n covers dom) {h : VecHistogram A (Flt F)} (hnew : VecHistogram.new axes = .ok h)
    (hist : List (Axis.Coordinate A × Option (Flt F))) (hd : ∀ cw ∈ hist, dom cw.1) (hfin : ∀ cw ∈ hist, ∀ w, cw.2 = some w → w.isFin)
    (hr : (1 + F.u) ^ hist.length * (hist.map fun cw => |fltWeight cw|).sum ≤ F.maxFin) :
    ∃ h' items, h.callAll (numCalls hist) = (h', none) ∧ h'.iter = .ok items ∧ items.length = n ∧
      ∀ i it, items[i]? = some it → it.index = i ∧ Axis.bin axes i = .ok (some it.bin) ∧ it.value.isFin ∧
        |it.value.val - ((hist.filter fun cw => covers it.bin cw.1).map fltWeight).sum| ≤
          ((1 + F.u) ^ (hist.countP (fun cw => covers it.bin cw.1) - 1) - 1) * ((hist.filter fun cw => covers it.bin cw.1).map fun cw => |fltWeight cw|).sum := by
  obtain ⟨items, hit, hlen, hall⟩ := C51_dense hf hnew _ (numCalls_dom hd)
  refine ⟨_, items, callAll_total hf hnew (numCalls_dom hd) numCalls_total, hit, hlen, ?_⟩
  intro i it hi
  obtain ⟨h1, h2, h3⟩ := hall i it hi
  refine ⟨h1, h2, ?_⟩
  rw [numCalls_coord hist (fun c => decide (covers it.bin c)), filledWith_flt] at h3
  rw [h3]
  exact near_bin hist _ hfin hr

/-! ## Filling in parts -/

/-- the filling calls of a plan given by coordinates and weights -/
def MergePlan.numCalls {T C : Type} [RNum T] : MergePlan (C × Option T) → MergePlan (Call T C)
  | .share cs => .share (NdHist.numCalls cs)
  | .merge l r => .merge l.numCalls r.numCalls

/-- the largest number of additions after one another that a plan needs, for any bin -/
def MergePlan.depth {K : Type} : MergePlan K → Nat
  | .share cs => cs.length - 1
  | .merge l r => max l.depth r.depth + 1

theorem near_plan (hf : FaithfulAxis axes n covers dom) [PEq A] (hrefl : PEq.peq axes axes = true) {h : VecHistogram A (Flt F)}
    (hnew : VecHistogram.new axes = .ok h) (plan : MergePlan (Axis.Coordinate A × Option (Flt F))) (hd : ∀ cw ∈ plan.calls, dom cw.1)
    (hfin : ∀ cw ∈ plan.calls, ∀ w, cw.2 = some w → w.isFin)
    (hr : (1 + F.u) ^ plan.depth * (plan.calls.map fun cw => |fltWeight cw|).sum ≤ F.maxFin) :
    ∃ m, plan.numCalls.run h = .ok (.ok m) ∧ m.Ok n ∧ m.axes = axes ∧ ∀ i, i < n → ∃ v, m.valueAtIndex i = some v ∧
      Near plan.depth v ((plan.calls.filter fun cw => Axis.index axes cw.1 = .ok (some i)).map fltWeight).sum
        ((plan.calls.filter fun cw => Axis.index axes cw.1 = .ok (some i)).map fun cw => |fltWeight cw|).sum 0 := by
  have nn : ∀ (l : List (Axis.Coordinate A × Option (Flt F))), 0 ≤ (l.map fun cw => |fltWeight cw|).sum :=
    fun l => sum_nonneg' l _ (fun _ _ => abs_nonneg _)
  have fl : ∀ (l : List (Axis.Coordinate A × Option (Flt F))) (p : Axis.Coordinate A × Option (Flt F) → Bool),
      ((l.filter p).map fun cw => |fltWeight cw|).sum ≤ (l.map fun cw => |fltWeight cw|).sum :=
    fun l p => sum_filter_le l _ p (fun _ _ => abs_nonneg _)
  have g0 : ∀ k, 0 ≤ (1 + F.u) ^ k := fun k => zero_le_one.trans (one_le_growth k)
  induction plan with
  | share hist =>
    simp only [MergePlan.calls, MergePlan.depth] at hd hfin hr
    have hc := callAll_total hf hnew (numCalls_dom hd) numCalls_total
    obtain ⟨ok, hax, hval⟩ := C28_dense hf.lawful hnew (numCalls hist)
    refine ⟨h.callAllCaught (numCalls hist), ?_, ok, hax, ?_⟩
    · simp only [MergePlan.numCalls, MergePlan.run, hc]
    intro i hi
    refine ⟨_, by rw [hval i, if_pos hi], ?_⟩
    simp only [MergePlan.calls, MergePlan.depth]
    unfold callsIn
    rw [numCalls_coord hist (fun c => decide (Axis.index axes c = .ok (some i))), filledWith_flt]
    set l := hist.filter fun cw => decide (Axis.index axes cw.1 = .ok (some i)) with hl
    have hle : l.length ≤ hist.length := List.length_filter_le _ _
    have key := near_sum (F := F) fltAdd fltWeight (fun cw => |fltWeight cw|) (fun _ => 0) l
      (fun cw hcw => fltAdd_near (hfin cw (List.mem_of_mem_filter hcw))) (by
        refine le_trans ?_ hr
        simp only [List.map_const', List.sum_replicate, smul_zero, add_zero]
        exact mul_le_mul (growth_mono (by omega)) (fl _ _) (nn _) (g0 _)) (z := Flt.zero false) trivial rfl
    simp only [List.map_const', List.sum_replicate, smul_zero] at key
    exact key.mono (by omega)
  | merge l r ihl ihr =>
    simp only [MergePlan.calls, MergePlan.depth, List.mem_append, List.map_append, List.sum_append] at hd hfin hr
    have hm := max_le_iff.1 (le_refl (max l.depth r.depth))
    obtain ⟨a, a1, a2, a3, a4⟩ := ihl (fun cw hc => hd cw (.inl hc)) (fun cw hc => hfin cw (.inl hc)) (by
      refine le_trans ?_ hr
      exact mul_le_mul (growth_mono (by omega)) (by linarith [nn r.calls]) (nn _) (g0 _))
    obtain ⟨b, b1, b2, b3, b4⟩ := ihr (fun cw hc => hd cw (.inr hc)) (fun cw hc => hfin cw (.inr hc)) (by
      refine le_trans ?_ hr
      exact mul_le_mul (growth_mono (by omega)) (by linarith [nn l.calls]) (nn _) (g0 _))
    rcases C33_binwise_dense .add a2 b2 (by rw [a3, b3]; exact hrefl) with ⟨m, m1, m2, m3, m4⟩ | ⟨p, i, x, y, -, -, -, hp⟩
    · refine ⟨m, ?_, m2, by rw [m3, a3], ?_⟩
      · simp only [MergePlan.numCalls, MergePlan.run, a1, b1, m1]
      intro i hi
      obtain ⟨x, y, z, l1, l2, l3, l4⟩ := m4 i hi
      obtain ⟨x', x1, x2⟩ := a4 i hi
      obtain ⟨y', y1, y2⟩ := b4 i hi
      rw [l1] at x1; rw [l2] at y1; cases x1; cases y1
      have hz : z = Flt.add x y := (Except.ok.inj l3).symm
      subst hz
      refine ⟨_, l4, ?_⟩
      have := x2.add y2 (by
        refine le_trans ?_ hr
        rw [add_zero, add_zero]
        exact mul_le_mul (growth_mono (by omega)) (add_le_add (fl _ _) (fl _ _)) (add_nonneg (nn _) (nn _)) (g0 _))
      rw [add_zero] at this
      simpa only [MergePlan.calls, MergePlan.depth, List.filter_append, List.map_append, List.sum_append] using this
    · cases hp

open Classical in
/-- **C57 (filling in parts).** The same for data split into any shares, filled into histograms of their own, which are added in any order and grouping: the error
is bounded by the number of additions after one another, `depth`, instead of the number of entries. -/
theorem C57_plan (hf : FaithfulAxis axes n covers dom) [PEq A] (hrefl : PEq.peq axes axes = true) {h : VecHistogram A (Flt F)}
    (hnew : VecHistogram.new axes = .ok h) (plan : MergePlan (Axis.Coordinate A × Option (Flt F))) (hd : ∀ cw ∈ plan.calls, dom cw.1)
    (hfin : ∀ cw ∈ plan.calls, ∀ w, cw.2 = some w → w.isFin)
    (hr : (1 + F.u) ^ plan.depth * (plan.calls.map fun cw => |fltWeight cw|).sum ≤ F.maxFin) :
    ∃ m items, plan.numCalls.run h = .ok (.ok m) ∧ m.iter = .ok items ∧ items.length = n ∧
      ∀ i it, items[i]? = some it → it.index = i ∧ Axis.bin axes i = .ok (some it.bin) ∧ it.value.isFin ∧
        |it.value.val - ((plan.calls.filter fun cw => covers it.bin cw.1).map fltWeight).sum| ≤
          ((1 + F.u) ^ plan.depth - 1) * ((plan.calls.filter fun cw => covers it.bin cw.1).map fun cw => |fltWeight cw|).sum := by
  obtain ⟨m, m1, m2, m3, m4⟩ := near_plan hf hrefl hnew plan hd hfin hr
  obtain ⟨items, hit, hlen, hall, -⟩ := C38_iter m2
  refine ⟨m, items, m1, hit, hlen, ?_⟩
  intro i it hi
  have hin : i < n := by rw [← hlen]; exact (List.getElem?_eq_some_iff.1 hi).1
  obtain ⟨b, v, h1, h2, h3⟩ := hall i hin
  rw [hi] at h1
  cases h1
  rw [m3] at h2
  obtain ⟨v', v1, v2⟩ := m4 i hin
  rw [h3] at v1
  cases v1
  have e : plan.calls.filter (fun cw => decide (Axis.index axes cw.1 = .ok (some i))) = plan.calls.filter (fun cw => decide (covers b cw.1)) := by
    apply List.filter_congr
    intro cw hcw
    exact decide_eq_decide.2 (hf.index_iff cw.1 (hd cw hcw) i b hin h2)
  rw [e] at v2
  have := v2.err
  rw [mul_zero, add_zero] at this
  exact ⟨rfl, h2, v2.fin, this⟩
/-! ## Sparse histograms -/

/-- If no call panics on any value, a program filling a sparse histogram with a faithful axis does not panic. -/
theorem callAll_total_sparse [RDefault V] (hf : FaithfulAxis axes n covers dom)
    {calls : List (Call V (Axis.Coordinate A))} (hd : ∀ call ∈ calls, dom call.coord) (ht : ∀ call ∈ calls, ∀ v, (call.on v).2 = none) :
    (HashHistogram.new axes : HashHistogram A V).callAll calls = ((HashHistogram.new axes : HashHistogram A V).callAllCaught calls, none) := by
  set h : HashHistogram A V := HashHistogram.new axes with hh
  obtain ⟨h1, h2⟩ := C28_until_panic_sparse h calls
  cases hp : (h.callAll calls).2 with
  | none => exact Prod.ext (h1 hp) hp
  | some p =>
    obtain ⟨pre, c, post, he, hc, -⟩ := h2 p hp
    obtain ⟨ok, -⟩ := C32_keys (V := V) hf.lawful pre
    have hax : (h.callAllCaught pre).axes = axes := by rw [HashHistogram.callAllCaught_axes]; rfl
    obtain ⟨-, -, g1, g2, -⟩ := C27_sparse ok c
    rw [← hh, hax] at g1 g2
    have hm : c ∈ calls := by rw [he]; simp
    obtain ⟨o, ho⟩ := hf.total c.coord (hd c hm)
    cases o with
    | none => rw [g2 ho] at hc; cases hc
    | some i => rw [(g1 i ho).2.1, ht c hm] at hc; cases hc

open Classical in
/-- **C57 (sparse histograms).** The same for sparse histograms, in whatever order their bins are iterated over. -/
theorem C57_sparse (hf : FaithfulAxis axes n covers dom)
    (hist : List (Axis.Coordinate A × Option (Flt F))) (hd : ∀ cw ∈ hist, dom cw.1) (hfin : ∀ cw ∈ hist, ∀ w, cw.2 = some w → w.isFin)
    (hr : (1 + F.u) ^ hist.length * (hist.map fun cw => |fltWeight cw|).sum ≤ F.maxFin) :
    ∃ h', (HashHistogram.new axes : HashHistogram A (Flt F)).callAll (numCalls hist) = (h', none) ∧ ∀ o : h'.values.Order, ∃ items, h'.iter o = .ok items ∧
      ∀ it ∈ items, Axis.bin axes it.index = .ok (some it.bin) ∧ it.value.isFin ∧
        |it.value.val - ((hist.filter fun cw => covers it.bin cw.1).map fltWeight).sum| ≤
          ((1 + F.u) ^ (hist.countP (fun cw => covers it.bin cw.1) - 1) - 1) * ((hist.filter fun cw => covers it.bin cw.1).map fun cw => |fltWeight cw|).sum := by
  refine ⟨_, callAll_total_sparse hf (numCalls_dom hd) numCalls_total, fun o => ?_⟩
  obtain ⟨items, hit, -, hall, -⟩ := C51_sparse hf _ (numCalls_dom hd) o
  refine ⟨items, hit, ?_⟩
  intro it hi
  obtain ⟨-, h2, -, h3⟩ := hall it hi
  refine ⟨h2, ?_⟩
  rw [numCalls_coord hist (fun c => decide (covers it.bin c)), filledWith_flt] at h3
  rw [h3]
  exact near_bin hist _ hfin hr

/-! ## Non-negative weights -/

theorem Flt.ge_zero_cases {x : Flt F} (h : POrd.ge x (Flt.zero false) = true) : (x.isFin ∧ 0 ≤ x.val) ∨ x = .inf false := by
  cases x with
  | nan => exact absurd h (by simp [POrd.ge, POrd.pcmp, Flt.pcmp])
  | inf s => cases s with
    | false => exact .inr rfl
    | true => exact absurd h (by simp [POrd.ge, POrd.pcmp, Flt.pcmp, Flt.zero])
  | fin s m hm =>
    rw [Flt.ge_fin (a := .fin s m hm) (b := Flt.zero false) trivial trivial] at h
    exact .inl ⟨trivial, by simpa [Flt.zero, Flt.val, sval] using h⟩

/-- adding a non-negative number to a non-negative number does not give less -/
theorem Flt.add_ge {v w : Flt F} (hv : POrd.ge v (Flt.zero false) = true) (hw : POrd.ge w (Flt.zero false) = true) :
    POrd.ge (Flt.add v w) v = true ∧ POrd.ge (Flt.add v w) (Flt.zero false) = true := by
  have inf_ge : ∀ x : Flt F, POrd.ge x (Flt.zero false) = true → POrd.ge (Flt.inf false : Flt F) x = true := by
    intro x hx
    rcases Flt.ge_zero_cases hx with ⟨h1, h2⟩ | rfl
    · cases x with
      | nan => exact h1.elim
      | inf => exact h1.elim
      | fin s m hm => simp [POrd.ge, POrd.pcmp, Flt.pcmp]
    · simp [POrd.ge, POrd.pcmp, Flt.pcmp]
  have h0 : POrd.ge (Flt.zero false : Flt F) (Flt.zero false) = true := by
    rw [Flt.ge_fin (a := (Flt.zero false : Flt F)) (b := Flt.zero false) trivial trivial]; simp
  have hinf : Flt.add v w = .inf false → POrd.ge (Flt.add v w) v = true ∧ POrd.ge (Flt.add v w) (Flt.zero false) = true := by
    intro e; rw [e]; exact ⟨inf_ge v hv, inf_ge _ h0⟩
  rcases Flt.ge_zero_cases hv with ⟨v1, v2⟩ | rfl
  · rcases Flt.ge_zero_cases hw with ⟨w1, w2⟩ | rfl
    · have hr := Flt.add_rounds v1 w1
      generalize Flt.add v w = x at hr hinf
      cases hr with
      | fin h1 h2 =>
        have h3 : v.val ≤ x.val := by rw [h2, ← Flt.rs_val v]; exact F.rs_mono (by rw [Flt.rs_val]; linarith)
        rw [Flt.ge_fin h1 v1, Flt.ge_fin (b := Flt.zero false) h1 trivial]
        have : (Flt.zero false : Flt F).val = 0 := rfl
        rw [this]
        exact ⟨by simpa using h3, by simpa using v2.trans h3⟩
      | inf h =>
        apply hinf
        rw [decide_eq_false (not_lt.2 (add_nonneg v2 w2))]
    · apply hinf
      cases v with
      | nan => exact v1.elim
      | inf => exact v1.elim
      | fin s m hm => rfl
  · apply hinf
    rcases Flt.ge_zero_cases hw with ⟨w1, w2⟩ | rfl
    · cases w with
      | nan => exact w1.elim
      | inf => exact w1.elim
      | fin s m hm => rfl
    · rfl

theorem foldl_ge {C : Type} (l : List (C × Option (Flt F))) (hw : ∀ cw ∈ l, ∀ w, cw.2 = some w → POrd.ge w (Flt.zero false) = true) {v : Flt F}
    (hv : POrd.ge v (Flt.zero false) = true) :
    POrd.ge (l.foldl (fun v cw => Flt.add v (fltAdd cw)) v) v = true ∧ POrd.ge (l.foldl (fun v cw => Flt.add v (fltAdd cw)) v) (Flt.zero false) = true := by
  induction l generalizing v with
  | nil => exact ⟨by
      rw [LawfulPOrd.ge_iff] at hv ⊢
      obtain ⟨x, y, h1, h2, h3⟩ := hv
      exact ⟨x, x, h1, h1, le_rfl⟩, hv⟩
  | cons cw l ih =>
    have ha : POrd.ge (fltAdd cw : Flt F) (Flt.zero false) = true := by
      obtain ⟨c, _ | w⟩ := cw
      · obtain ⟨o1, o2⟩ := Flt.ofNat_spec (F := F) (n := 1) (Nat.one_le_two_pow)
        rw [Nat.cast_one] at o1 o2
        show POrd.ge (Flt.ofRat 1 : Flt F) _ = true
        rw [Flt.ge_fin (b := Flt.zero false) o1 trivial, o2]
        have : (Flt.zero false : Flt F).val = 0 := rfl
        rw [this]; simp
      · exact hw _ (List.mem_cons_self ..) w rfl
    obtain ⟨s1, s2⟩ := Flt.add_ge hv ha
    obtain ⟨r1, r2⟩ := ih (fun cw h => hw cw (List.mem_cons_of_mem _ h)) s2
    refine ⟨?_, r2⟩
    rw [List.foldl_cons]
    rw [LawfulPOrd.ge_iff] at r1 s1 ⊢
    obtain ⟨x, y, h1, h2, h3⟩ := r1
    obtain ⟨y', z, g1, g2, g3⟩ := s1
    rw [h2] at g1
    cases g1
    exact ⟨x, z, h1, g2, g3.trans h3⟩

/-- **C57 (non-negative weights).** Filling a float histogram with non-negative weights, infinity included, never makes a bin smaller, negative or NaN, whatever
the roundings. -/
theorem C57_monotone (hl : LawfulAxis axes n) {h : VecHistogram A (Flt F)} (hnew : VecHistogram.new axes = .ok h)
    (before after : List (Axis.Coordinate A × Option (Flt F)))
    (hw : ∀ cw ∈ before ++ after, ∀ w, cw.2 = some w → POrd.ge w (Flt.zero false) = true) :
    ∀ i, i < n → ∃ v v', (h.callAllCaught (numCalls before)).valueAtIndex i = some v ∧
      (h.callAllCaught (numCalls (before ++ after))).valueAtIndex i = some v' ∧
      POrd.ge v (Flt.zero false) = true ∧ POrd.ge v' v = true := by
  intro i hi
  obtain ⟨-, -, h1⟩ := C28_dense hl hnew (numCalls before)
  obtain ⟨-, -, h2⟩ := C28_dense hl hnew (numCalls (before ++ after))
  refine ⟨_, _, by rw [h1 i, if_pos hi], by rw [h2 i, if_pos hi], ?_⟩
  unfold callsIn
  rw [numCalls_coord before (fun c => decide (Axis.index axes c = .ok (some i))), filledWith_flt,
    numCalls_coord (before ++ after) (fun c => decide (Axis.index axes c = .ok (some i))), filledWith_flt, List.filter_append, List.foldl_append]
  have h0 : POrd.ge (RDefault.dflt : Flt F) (Flt.zero false) = true := by
    show POrd.ge (Flt.zero false : Flt F) (Flt.zero false) = true
    rw [Flt.ge_fin (a := (Flt.zero false : Flt F)) (b := Flt.zero false) trivial trivial]; simp
  obtain ⟨-, a2⟩ := foldl_ge (before.filter fun cw => decide (Axis.index axes cw.1 = .ok (some i)))
    (fun cw hc => hw cw (List.mem_append_left _ (List.mem_of_mem_filter hc))) h0
  obtain ⟨b1, -⟩ := foldl_ge (after.filter fun cw => decide (Axis.index axes cw.1 = .ok (some i)))
    (fun cw hc => hw cw (List.mem_append_right _ (List.mem_of_mem_filter hc))) a2
  exact ⟨a2, b1⟩
end

/-! ## Concrete cases -/

section
attribute [local instance] dbg64

/-- a history of `f64` weights with a rounding error: 0.1 + 0.2 + 0.3 -/
def exFltHist : List (String × Option F64) := [("a", some (f64 0.1)), ("b", none), ("a", some (f64 0.2)), ("a", some (f64 0.3))]

/-- the hypotheses hold, and the error is not zero -/
example : (∀ cw ∈ exFltHist, ∀ w, cw.2 = some w → w.isFin) ∧
    (1 + FFmt.f64.u) ^ exFltHist.length * (exFltHist.map fun cw => |fltWeight cw|).sum ≤ FFmt.f64.maxFin ∧
    (∃ v, ((VecHistogram.mk exAxis [f64 0, f64 0] : VecHistogram (CategoryNoFlow String) F64).callAllCaught (numCalls exFltHist)).valueAtIndex 0 = some v ∧
      v.val ≠ ((exFltHist.filter fun cw => cw.1 = "a").map fltWeight).sum) := by
  refine ⟨?_, by decide +kernel, ⟨_, rfl, by decide +kernel⟩⟩
  intro cw hc w hw
  simp only [exFltHist, List.mem_cons, List.not_mem_nil, or_false] at hc
  rcases hc with rfl | rfl | rfl | rfl <;> cases hw <;> decide +kernel
end
end NdHist
