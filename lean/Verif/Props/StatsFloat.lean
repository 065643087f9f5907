import Verif.Props.Stats
import Verif.Props.FloatExact
/-!
# C89 for histograms whose bins are floats (the default of `ndhistogram!`): running totals computed with floats
-/
namespace NdHist
open scoped Classical

section
variable [cfg : Cfg] {F : FFmt} {A : Type} [Axis A] {a : A} {n : Nat} {covers : Axis.Interval A → Axis.Coordinate A → Prop} {dom : Axis.Coordinate A → Prop}
  {stop : Axis.Interval A → Option (Axis.Coordinate A)} {lt le : Axis.Coordinate A → Axis.Coordinate A → Prop}

/-- counting with floats, up to `2^p` -/
theorem additive_count_float {C : Type} (cs : List C) (hfit : cs.length ≤ 2 ^ F.p) (l : List (Call (Flt F) C)) (hl : l.Sublist (cs.map Call.fill)) :
    (filledWith l (RDefault.dflt : Flt F)).isFin ∧ (filledWith l (RDefault.dflt : Flt F)).val = (l.length : ℚ) := by
  obtain ⟨cs', hs, rfl⟩ := List.sublist_map_iff.1 hl
  have hlen : cs'.length ≤ 2 ^ F.p := le_trans hs.length_le hfit
  have e0 : (cs'.map .fill : List (Call (Flt F) C)) = numCalls (cs'.map fun c => (c, none)) := by
    unfold numCalls; rw [List.map_map]; rfl
  rw [List.length_map, e0, filledWith_flt, List.foldl_map]
  have := count_foldl (F := F) cs' (k := 0) (v := RDefault.dflt) trivial (by rw [Nat.cast_zero, min_eq_left (by positivity)]; rfl)
  rw [zero_add, min_eq_left (by exact_mod_cast hlen)] at this
  exact this

/-- adding counts with floats -/
theorem running_nat (value : Nat → Option (Flt F)) (f : Nat → Nat) (m : Nat) (hv : ∀ i < m, match value i with | some v => v.isFin ∧ v.val = f i | none => f i = 0)
    (hb : (∑ i ∈ Finset.range m, f i) ≤ 2 ^ F.p) :
    (runningFloat value m).isFin ∧ (runningFloat value m).val = ((∑ i ∈ Finset.range m, f i : ℕ) : ℚ) := by
  induction m with
  | zero => exact ⟨trivial, by simp [runningFloat, Flt.zero, Flt.val, Flt.sval]⟩
  | succ m ih =>
    rw [Finset.sum_range_succ] at hb ⊢
    obtain ⟨h1, h2⟩ := ih (fun i hi => hv i (by omega)) (by omega)
    have e : runningFloat value (m + 1) = match value m with | some v => Flt.add (runningFloat value m) v | none => runningFloat value m := by
      unfold runningFloat
      rw [List.range_succ, List.foldl_append]
      rfl
    have hm := hv m (by omega)
    rw [e]
    cases hx : value m with
    | none =>
      rw [hx] at hm
      simp only at hm ⊢
      exact ⟨h1, by rw [h2, hm, add_zero]⟩
    | some v =>
      rw [hx] at hm
      simp only at hm ⊢
      have hem := F.emax_ge
      have hmi := F.emin_le
      have hpg := F.p_ge
      have hsum : (runningFloat value m).val + v.val = ((∑ i ∈ Finset.range m, f i) + f m : ℕ) := by rw [h2, hm.2]; push_cast; rfl
      obtain ⟨f1, f2⟩ := Flt.add_grid (F := F) (e := 0) (by unfold FFmt.qmin; omega) (by omega) h1 hm.1
        ⟨((∑ i ∈ Finset.range m, f i) + f m : ℕ), by rw [hsum]; simp⟩
        (by rw [hsum, abs_of_nonneg (Nat.cast_nonneg _), zero_add, zpow_natCast]; exact_mod_cast hb)
      exact ⟨f1, by rw [f2, hsum]⟩

theorem count_range (cs : List (Axis.Coordinate A)) (m : Nat) :
    (∑ i ∈ Finset.range m, (callsIn a i (cs.map Call.fill : List (Call (Flt F) _))).length) = cs.countP fun c => (binNo a c).any (· < m) := by
  have := sum_filter_range (M := ℕ) (fun c => binNo a c) (fun _ => 1) m cs
  rw [List.map_const', List.sum_replicate, smul_eq_mul, mul_one, ← List.countP_eq_length_filter] at this
  rw [← this]
  refine Finset.sum_congr rfl fun i _ => ?_
  rw [callsIn_binNo, List.filter_map, List.length_map, List.map_const', List.sum_replicate, smul_eq_mul, mul_one]
  rfl

theorem running_dense (hl : LawfulAxis a n) {h : VecHistogram A (Flt F)} (hnew : VecHistogram.new a = .ok h) (cs : List (Axis.Coordinate A)) (hfit : cs.length ≤ 2 ^ F.p) (m : Nat) :
    (runningFloat (h.callAllCaught (cs.map .fill)).valueAtIndex m).isFin ∧
      (runningFloat (h.callAllCaught (cs.map .fill)).valueAtIndex m).val = ((cs.countP fun c => (binNo a c).any (· < m) : ℕ) : ℚ) := by
  have := running_nat (h.callAllCaught (cs.map .fill)).valueAtIndex (fun i => (callsIn a i (cs.map Call.fill : List (Call (Flt F) _))).length) m ?_ ?_
  · rwa [count_range] at this
  · intro i _
    rw [(C28_dense hl hnew (cs.map .fill)).2.2 i]
    by_cases hi : i < n
    · rw [if_pos hi]
      exact additive_count_float cs hfit _ List.filter_sublist
    · rw [if_neg hi]
      have : callsIn a i (cs.map Call.fill : List (Call (Flt F) _)) = [] := by
        rw [callsIn, List.filter_eq_nil_iff]
        intro call _ hc
        exact hi (hl.index_lt _ _ (by simpa using hc))
      simp [this]
  · rw [count_range]
    exact le_trans List.countP_le_length hfit

theorem running_sparse (cs : List (Axis.Coordinate A)) (hfit : cs.length ≤ 2 ^ F.p) (m : Nat) :
    (runningFloat ((HashHistogram.new a : HashHistogram A (Flt F)).callAllCaught (cs.map .fill)).valueAtIndex m).isFin ∧
      (runningFloat ((HashHistogram.new a : HashHistogram A (Flt F)).callAllCaught (cs.map .fill)).valueAtIndex m).val = ((cs.countP fun c => (binNo a c).any (· < m) : ℕ) : ℚ) := by
  have := running_nat ((HashHistogram.new a : HashHistogram A (Flt F)).callAllCaught (cs.map .fill)).valueAtIndex
    (fun i => (callsIn a i (cs.map Call.fill : List (Call (Flt F) _))).length) m ?_ ?_
  · rwa [count_range] at this
  · intro i _
    rw [C28_sparse a (cs.map .fill) i]
    by_cases hi : callsIn a i (cs.map Call.fill : List (Call (Flt F) _)) = []
    · rw [if_pos hi]
      simp [hi]
    · rw [if_neg hi]
      exact additive_count_float cs hfit _ List.filter_sublist
  · rw [count_range]
    exact le_trans List.countP_le_length hfit

theorem binNo_any (c : Axis.Coordinate A) (m : Nat) : (binNo a c).any (· < m) = true ↔ ∃ j, j < m ∧ Axis.index a c = .ok (some j) := by
  rw [Option.any_eq_true]
  constructor
  · rintro ⟨j, h1, h2⟩
    exact ⟨j, by simpa using h2, (binNo_iff a c j).1 h1⟩
  · rintro ⟨j, h1, h2⟩
    exact ⟨j, (binNo_iff a c j).2 h2, by simpa using h1⟩

theorem countP_binNo (cs : List (Axis.Coordinate A)) (m : Nat) : (cs.countP fun c => (binNo a c).any (· < m)) = cs.countP fun c => ∃ j, j < m ∧ Axis.index a c = .ok (some j) :=
  List.countP_congr fun c _ => by rw [binNo_any, decide_eq_true_eq]

/-- C89 (float bins): with at most `2^p` fills the running totals, computed with floats, are exact: the total over the first `m` bins is the number of fills counted in these bins.
Dense and sparse histograms. -/
theorem C89_running_float (hl : LawfulAxis a n) {h : VecHistogram A (Flt F)} (hnew : VecHistogram.new a = .ok h) (cs : List (Axis.Coordinate A)) (hfit : cs.length ≤ 2 ^ F.p) (m : Nat) :
    ((runningFloat (h.callAllCaught (cs.map .fill)).valueAtIndex m).isFin ∧
      (runningFloat (h.callAllCaught (cs.map .fill)).valueAtIndex m).val = ((cs.countP fun c => ∃ j, j < m ∧ Axis.index a c = .ok (some j) : ℕ) : ℚ)) ∧
    ((runningFloat ((HashHistogram.new a : HashHistogram A (Flt F)).callAllCaught (cs.map .fill)).valueAtIndex m).isFin ∧
      (runningFloat ((HashHistogram.new a : HashHistogram A (Flt F)).callAllCaught (cs.map .fill)).valueAtIndex m).val =
        ((cs.countP fun c => ∃ j, j < m ∧ Axis.index a c = .ok (some j) : ℕ) : ℚ)) := by
  rw [← countP_binNo]
  exact ⟨running_dense hl hnew cs hfit m, running_sparse cs hfit m⟩

/-- C89 (float bins): the running total up to and including the bin that ends at `e` is the number of (counted) coordinates below `e`; dense and sparse -/
theorem C89_count_below_float (ha : AscendingAxis a n covers dom stop lt) {h : VecHistogram A (Flt F)} (hnew : VecHistogram.new a = .ok h) (cs : List (Axis.Coordinate A))
    (hd : ∀ c ∈ cs, dom c) (hfit : cs.length ≤ 2 ^ F.p) {i : Nat} {b : Axis.Interval A} {e : Axis.Coordinate A} (hi : i < n) (hb : Axis.bin a i = .ok (some b)) (he : stop b = some e) :
    (runningFloat (h.callAllCaught (cs.map .fill)).valueAtIndex (i + 1)).val = ((cs.countP fun c => (∃ j, Axis.index a c = .ok (some j)) ∧ lt c e : ℕ) : ℚ) ∧
    (runningFloat ((HashHistogram.new a : HashHistogram A (Flt F)).callAllCaught (cs.map .fill)).valueAtIndex (i + 1)).val =
      ((cs.countP fun c => (∃ j, Axis.index a c = .ok (some j)) ∧ lt c e : ℕ) : ℚ) := by
  have key : (cs.countP fun c => (binNo a c).any (· < i + 1)) = cs.countP fun c => (∃ j, Axis.index a c = .ok (some j)) ∧ lt c e := by
    refine List.countP_congr fun c hc => ?_
    rw [binNo_any, decide_eq_true_eq]
    have hbelow : ∀ j, Axis.index a c = .ok (some j) → (lt c e ↔ j ≤ i) := by
      intro j hj
      have hj' := ha.faithful.lawful.index_lt _ _ hj
      obtain ⟨b', hb'⟩ := ha.faithful.lawful.bin_some j hj'
      exact ha.below i b e hi hb he j b' c hj' hb' (hd c hc) ((ha.faithful.index_iff c (hd c hc) j b' hj' hb').1 hj)
    constructor
    · rintro ⟨j, h1, h2⟩
      exact ⟨⟨j, h2⟩, (hbelow j h2).2 (by omega)⟩
    · rintro ⟨⟨j, h2⟩, h3⟩
      exact ⟨j, by have := (hbelow j h2).1 h3; omega, h2⟩
  rw [← key]
  exact ⟨(running_dense ha.faithful.lawful hnew cs hfit _).2, (running_sparse cs hfit _).2⟩

/-- C89 (float bins): quantiles. `s` are the counted coordinates in ascending order; the `k`-th of them (from 0) is in bin `i` exactly if the running total, computed with floats, passes `k` there;
dense and sparse. -/
theorem C89_quantile_float (hm : MonotoneAxis a n dom le) {h : VecHistogram A (Flt F)} (hnew : VecHistogram.new a = .ok h) (cs s : List (Axis.Coordinate A))
    (hd : ∀ c ∈ cs, dom c) (hfit : cs.length ≤ 2 ^ F.p) (hperm : s.Perm (cs.filter fun c => ∃ j, Axis.index a c = .ok (some j))) (hs : s.Pairwise le)
    {k : Nat} {x : Axis.Coordinate A} (hk : s[k]? = some x) :
    ∃ i, Axis.index a x = .ok (some i) ∧ ∀ i',
      (((runningFloat (h.callAllCaught (cs.map .fill)).valueAtIndex i').val ≤ k ∧ k < (runningFloat (h.callAllCaught (cs.map .fill)).valueAtIndex (i' + 1)).val) ↔ i' = i) ∧
      (((runningFloat ((HashHistogram.new a : HashHistogram A (Flt F)).callAllCaught (cs.map .fill)).valueAtIndex i').val ≤ k ∧
        k < (runningFloat ((HashHistogram.new a : HashHistogram A (Flt F)).callAllCaught (cs.map .fill)).valueAtIndex (i' + 1)).val) ↔ i' = i) := by
  obtain ⟨j, hj, hlt⟩ := quantile_aux hm cs s hd hperm hs k x hk
  refine ⟨j, hj, fun i' => ?_⟩
  rw [(running_dense hm.lawful hnew cs hfit _).2, (running_dense hm.lawful hnew cs hfit _).2, (running_sparse cs hfit _).2, (running_sparse cs hfit _).2, and_self]
  have h1 := hlt i'
  have h2 := hlt (i' + 1)
  rw [Nat.cast_le, Nat.cast_lt]
  omega

/-- C89 (float bins): the sum of the coordinates between the sums of the lower and the upper bin edges, and the mean from the bin centres off by at most half a bin width -/
theorem C89_mean_float (hf : FaithfulAxis a n covers dom) {h : VecHistogram A (Flt F)} (hnew : VecHistogram.new a = .ok h) (cs : List (Axis.Coordinate A)) (hd : ∀ c ∈ cs, dom c)
    (hfit : cs.length ≤ 2 ^ F.p) (inner : Axis.Interval A → Prop) (num : Axis.Coordinate A → ℚ) (lo hi : Axis.Interval A → ℚ)
    (hb : ∀ b c, inner b → dom c → covers b c → lo b ≤ num c ∧ num c ≤ hi b) (W : ℚ) (hW : ∀ b, inner b → hi b - lo b ≤ W) :
    ∃ h' items, h.callAll (cs.map .fill) = (h', none) ∧ h'.iter = .ok items ∧
      ∀ N S B L H : ℚ, N = ((items.filter fun it => inner it.bin).map fun it => it.value.val).sum →
        S = ((cs.filter fun c => ∃ it ∈ items, inner it.bin ∧ covers it.bin c).map num).sum →
        B = ((items.filter fun it => inner it.bin).map fun it => it.value.val * ((lo it.bin + hi it.bin) / 2)).sum →
        L = ((items.filter fun it => inner it.bin).map fun it => it.value.val * lo it.bin).sum →
        H = ((items.filter fun it => inner it.bin).map fun it => it.value.val * hi it.bin).sum →
        N = (cs.filter fun c => ∃ it ∈ items, inner it.bin ∧ covers it.bin c).length ∧ L ≤ S ∧ S ≤ H ∧ (0 < N → |B / N - S / N| ≤ W / 2) := by
  obtain ⟨h', items, h1, h2, hlen, h3⟩ := C52_count_float hf hnew cs hd
  have hc : ∀ i it, items[i]? = some it → Axis.bin a i = .ok (some it.bin) ∧ it.value.val = ((cs.countP fun c => covers it.bin c : ℕ) : ℚ) := by
    intro i it hi
    obtain ⟨-, k2, -, k4⟩ := h3 i it hi
    have hle : (cs.countP fun c => covers it.bin c) ≤ 2 ^ F.p := le_trans List.countP_le_length hfit
    exact ⟨k2, by rw [k4, min_eq_left hle]⟩
  refine ⟨h', items, h1, h2, ?_⟩
  rintro N S B L H rfl rfl rfl rfl rfl
  obtain ⟨g1, g2, g3⟩ := sum_core (Flt.val (F := F)) hf cs hd hlen hc inner num lo hi hb
  exact ⟨by rw [g1, List.countP_eq_length_filter], g2, g3, fun hN => (mean_core (Flt.val (F := F)) hf cs hd hlen hc inner num lo hi hb W hW _ _ _ rfl rfl rfl hN).2⟩
end
end NdHist
