import Verif.SpecIter
import Verif.Props.Access
/-!
# C67: iterators are lazy
-/
set_option linter.unusedSectionVars false
namespace NdHist

/-! ## What an iterator yields -/

/-- From state `s` on, the iterator yields `rs` and then nothing, with exact size hints. -/
def LIter.Yields {σ α : Type} (it : LIter σ α) : σ → List (Res α) → Prop
  | s, [] => it.next s = (.ok none, s) ∧ it.hint s = 0
  | s, r :: rs => (it.next s).1 = (r >>= fun x => .ok (some x)) ∧ it.hint s = rs.length + 1 ∧ Yields it (it.next s).2 rs

namespace LIter.Yields
variable {σ α β : Type}

theorem hint {it : LIter σ α} : ∀ {s : σ} {rs : List (Res α)}, it.Yields s rs → it.hint s = rs.length
  | _, [], h => h.2
  | _, _ :: _, h => h.2.1

theorem range (n : Nat) : ∀ k i, i + k = n → LIter.range.Yields (i, n) ((List.range' i k).map .ok) := by
  intro k
  induction k with
  | zero => intro i h; subst h; simp [LIter.Yields, LIter.range]
  | succ k ih =>
    intro i h
    rw [List.range'_succ, List.map_cons]
    have hlt : i < n := by omega
    have hn : LIter.range.next (i, n) = (.ok (some i), (i + 1, n)) := by simp [LIter.range, hlt]
    refine ⟨by rw [hn]; rfl, ?_, by rw [hn]; exact ih (i + 1) (by omega)⟩
    simp [LIter.range]; omega

theorem list : ∀ l : List α, LIter.list.Yields l (l.map .ok)
  | [] => ⟨rfl, rfl⟩
  | _ :: l => ⟨rfl, by simp [LIter.list], list l⟩

theorem map (f : α → Res β) {it : LIter σ α} : ∀ {s : σ} {rs : List (Res α)}, it.Yields s rs → (it.map f).Yields s (rs.map fun r => r >>= f)
  | s, [], h => ⟨by simp [LIter.map, h.1], h.2⟩
  | s, r :: rs, h => by
    obtain ⟨h1, h2, h3⟩ := h
    have hs : ((it.map f).next s).2 = (it.next s).2 := by
      unfold LIter.map
      simp only
      rcases hn : it.next s with ⟨(p | (_ | x)), s'⟩ <;> rfl
    refine ⟨?_, by rw [List.length_map]; exact h2, by rw [hs]; exact map f h3⟩
    unfold LIter.map
    simp only
    rcases hn : it.next s with ⟨r', s'⟩
    rw [hn] at h1
    rcases r with p | x
    · have h1 : r' = .error p := h1
      subst h1; rfl
    · have h1 : r' = .ok (some x) := h1
      subst h1; rfl

/-- the items of `zip`, if the right side is long enough -/
def zipY : List (Res α) → List β → List (Res (α × β))
  | [], _ => []
  | .error p :: rs, l => .error p :: zipY rs l
  | .ok _ :: _, [] => []
  | .ok x :: rs, y :: l => .ok (x, y) :: zipY rs l

theorem zipY_length : ∀ (rs : List (Res α)) (l : List β), rs.length ≤ l.length → (zipY rs l).length = rs.length
  | [], _, _ => rfl
  | .error p :: rs, l, h => by simp [zipY, zipY_length rs l (by simp at h; omega)]
  | .ok x :: rs, [], h => by simp at h
  | .ok x :: rs, y :: l, h => by simp [zipY, zipY_length rs l (by simpa using h)]

theorem zip {it : LIter σ α} : ∀ {rs : List (Res α)} {s : σ} {l : List β}, it.Yields s rs → rs.length ≤ l.length →
    (it.zip LIter.list).Yields (s, l) (zipY rs l)
  | [], s, l, h, _ => ⟨by simp [LIter.zip, h.1], by simp [LIter.zip, h.2]⟩
  | .error p :: rs, s, l, h, hl => by
    obtain ⟨h1, h2, h3⟩ := h
    have hn : (it.zip (LIter.list (α := β))).next (s, l) = (.error p, ((it.next s).2, l)) := by
      unfold LIter.zip; simp only
      rcases hn : it.next s with ⟨r', s'⟩
      rw [hn] at h1
      have h1 : r' = .error p := h1
      subst h1; rfl
    have hle : rs.length ≤ l.length := by simp at hl; omega
    refine ⟨by rw [hn]; rfl, ?_, by rw [hn]; exact zip h3 hle⟩
    rw [zipY_length rs l hle]
    simp only [LIter.zip, LIter.list, h2]
    simp at hl; omega
  | .ok x :: rs, s, [], h, hl => by simp at hl
  | .ok x :: rs, s, y :: l, h, hl => by
    obtain ⟨h1, h2, h3⟩ := h
    have hn : (it.zip (LIter.list (α := β))).next (s, y :: l) = (.ok (some (x, y)), ((it.next s).2, l)) := by
      unfold LIter.zip; simp only
      rcases hn : it.next s with ⟨r', s'⟩
      rw [hn] at h1
      have h1 : r' = .ok (some x) := h1
      subst h1; rfl
    have hle : rs.length ≤ l.length := by simpa using hl
    refine ⟨by rw [hn]; rfl, ?_, by rw [hn]; exact zip h3 hle⟩
    rw [zipY_length rs l hle]
    simp only [LIter.zip, LIter.list, h2, List.length_cons]
    omega

/-- the results of `k` calls -/
theorem pull {it : LIter σ α} : ∀ (k : Nat) {s : σ} {rs : List (Res α)}, it.Yields s rs →
    (it.pull k s).1 = (List.range k).map (fun i => match rs[i]? with | some r => r >>= fun x => .ok (some x) | none => .ok none) ∧
    it.hint (it.pull k s).2 = rs.length - k
  | 0, s, rs, h => ⟨rfl, h.hint⟩
  | k + 1, s, [], h => by
    obtain ⟨i1, i2⟩ := pull k h
    rw [LIter.pull, h.1]
    refine ⟨?_, by simpa using i2⟩
    rw [List.range_succ_eq_map, List.map_cons, List.map_map]
    simp only [i1]
    congr 1
  | k + 1, s, r :: rs, h => by
    obtain ⟨h1, h2, h3⟩ := h
    obtain ⟨i1, i2⟩ := pull k h3
    rw [LIter.pull]
    refine ⟨?_, ?_⟩
    · rw [List.range_succ_eq_map, List.map_cons, List.map_map]
      simp only [i1, h1]
      congr 1
    · simp only [i2, List.length_cons]; omega

theorem collect {it : LIter σ α} : ∀ (fuel : Nat) {s : σ} {rs : List (Res α)}, it.Yields s rs → rs.length < fuel → it.collect fuel s = rs.mapM id
  | 0, _, _, _, hf => by omega
  | fuel + 1, s, [], h, _ => by rw [LIter.collect, h.1]; rfl
  | fuel + 1, s, r :: rs, h, hf => by
    obtain ⟨h1, h2, h3⟩ := h
    have ih := collect fuel h3 (by simpa using hf)
    rw [LIter.collect, List.mapM_cons]
    rcases hn : it.next s with ⟨r', s'⟩
    rw [hn] at h1 ih
    rcases r with p | x
    · have h1 : r' = .error p := h1
      subst h1; rfl
    · have h1 : r' = .ok (some x) := h1
      subst h1
      simp only [id, bind, Except.bind] at ih ⊢
      rw [ih]

/-- the loop over a list of results -/
def run {τ : Type} (body : α → τ → τ × Flow) : List (Res α) → τ → τ × Option Panic
  | [], t => (t, none)
  | .error p :: _, t => (t, some p)
  | .ok x :: rs, t =>
    match body x t with
    | (t', .next) => run body rs t'
    | (t', .stop) => (t', none)
    | (t', .panic p) => (t', some p)

theorem forLoop {τ : Type} (body : α → τ → τ × Flow) {it : LIter σ α} : ∀ (fuel : Nat) {s : σ} {rs : List (Res α)} (t : τ), it.Yields s rs →
    rs.length < fuel → it.forLoop body fuel s t = run body rs t
  | 0, _, _, _, _, hf => by omega
  | fuel + 1, s, [], t, h, _ => by rw [LIter.forLoop, h.1]; rfl
  | fuel + 1, s, r :: rs, t, h, hf => by
    obtain ⟨h1, h2, h3⟩ := h
    rw [LIter.forLoop]
    rcases hn : it.next s with ⟨r', s'⟩
    rw [hn] at h1 h3
    rcases r with p | x
    · have h1 : r' = .error p := h1
      subst h1; rfl
    · have h1 : r' = .ok (some x) := h1
      subst h1
      simp only [run]
      rcases body x t with ⟨t', (_ | _ | p)⟩
      · exact forLoop body fuel t' h3 (by simpa using hf)
      · rfl
      · rfl
end LIter.Yields

open LIter

/-! ## Axes -/
section
variable [Cfg] {A : Type} [Axis A]

theorem mapM_id_map {α β : Type} (f : α → Res β) (l : List α) : (l.map f).mapM id = l.mapM f := by
  induction l with
  | nil => rfl
  | cons a l ih => rw [List.map_cons, List.mapM_cons, List.mapM_cons, ih]; rfl

theorem range_getElem_bind {β : Type} (f : Nat → Res β) (n i : Nat) :
    (match ((List.range n).map f)[i]? with | some r => r >>= fun x => .ok (some x) | none => (.ok none : Res (Option β))) =
      if i < n then f i >>= fun x => .ok (some x) else .ok none := by
  by_cases h : i < n
  · simp [h]
  · simp [h]

theorem iterL_yields (a : A) (n : Nat) : (Axis.iterL a).Yields (0, n) ((List.range n).map fun i => do
    let b ← Axis.bin a i
    let b ← expect b
    return (i, b)) := by
  have h := (Yields.range n n 0 (by omega)).map (fun it => do
    let b ← Axis.bin a it
    let b ← expect b
    return (it, b))
  rw [List.map_map, ← List.range_eq_range'] at h
  exact h

theorem binsL_yields (a : A) (n : Nat) : (Axis.binsL a).Yields (0, n) ((List.range n).map fun i => do
    let b ← Axis.bin a i
    expect b) := by
  have h := (Yields.range n n 0 (by omega)).map (fun it => do
    let b ← Axis.bin a it
    expect b)
  rw [List.map_map, ← List.range_eq_range'] at h
  exact h

/-- **C67 (axis iterators).** The `i`-th call of `next()` on the iterators of an axis with `n` bins gives the number `i`, the bin `i` or both, whatever happened before;
it panics exactly if `bin(i)` does (or is `None`), and a caught panic does not disturb the later items. From the `n`-th call on they give `None`. `size_hint` is exact. -/
theorem C67_axis {a : A} {n : Nat} (hn : Axis.numBins a = .ok n) (k : Nat) : Axis.start a = .ok (0, n) ∧
    (LIter.range.pull k (0, n)).1 = (List.range k).map (fun i => if i < n then .ok (some i) else .ok none) ∧
    ((Axis.iterL a).pull k (0, n)).1 = (List.range k).map (fun i => if i < n then (do
      let b ← Axis.bin a i
      let b ← expect b
      return some (i, b)) else .ok none) ∧
    ((Axis.binsL a).pull k (0, n)).1 = (List.range k).map (fun i => if i < n then (do
      let b ← Axis.bin a i
      let b ← expect b
      return some b) else .ok none) ∧
    LIter.range.hint (LIter.range.pull k (0, n)).2 = n - k ∧ (Axis.iterL a).hint ((Axis.iterL a).pull k (0, n)).2 = n - k ∧
    (Axis.binsL a).hint ((Axis.binsL a).pull k (0, n)).2 = n - k := by
  have hr := (Yields.range n n 0 (by omega)).pull k
  rw [← List.range_eq_range'] at hr
  have hi := (iterL_yields a n).pull k
  have hb := (binsL_yields a n).pull k
  simp only [List.length_map, List.length_range] at hr hi hb
  refine ⟨by rw [Axis.start, hn]; rfl, ?_, ?_, ?_, hr.2, hi.2, hb.2⟩
  · rw [hr.1]; congr 1; funext i
    exact range_getElem_bind .ok n i
  · rw [hi.1]; congr 1; funext i
    rw [range_getElem_bind]
    split
    · simp only [bind, Except.bind, pure, Except.pure]
      rcases Axis.bin a i with p | (_ | b) <;> rfl
    · rfl
  · rw [hb.1]; congr 1; funext i
    rw [range_getElem_bind]
    split
    · simp only [bind, Except.bind, pure, Except.pure]
      rcases Axis.bin a i with p | (_ | b) <;> rfl
    · rfl

/-- **C67 (axis iterators).** Collecting an iterator gives the list (or panic) of C25, whether or not bins panic. -/
theorem C67_axis_collect {a : A} {n : Nat} (hn : Axis.numBins a = .ok n) {fuel : Nat} (hf : n < fuel) :
    LIter.range.collect fuel (0, n) = Axis.indices a ∧ (Axis.iterL a).collect fuel (0, n) = Axis.iter a ∧
    (Axis.binsL a).collect fuel (0, n) = Axis.bins a := by
  have hr := (Yields.range n n 0 (by omega)).collect fuel (by simpa using hf)
  rw [← List.range_eq_range'] at hr
  have hind : Axis.indices a = .ok (List.range n) := by unfold Axis.indices; rw [hn]; rfl
  refine ⟨?_, ?_, ?_⟩
  · rw [hr, hind, mapM_id_map]
    generalize List.range n = l
    induction l with
    | nil => rfl
    | cons a l ih => rw [List.mapM_cons, ih]; rfl
  · rw [(iterL_yields a n).collect fuel (by simpa using hf), mapM_id_map, Axis.iter, hind]; rfl
  · rw [(binsL_yields a n).collect fuel (by simpa using hf), mapM_id_map, Axis.bins, hind]; rfl
end

theorem mapM_bind_of_ok {α β γ : Type} (g : α → Res β) (f : β → Res γ) (l : List α) (h : ∀ x ∈ l, ∀ y, g x = .ok y → ∃ z, f y = .ok z) :
    l.mapM (fun x => g x >>= f) = (l.mapM g >>= fun ys => ys.mapM f) := by
  induction l with
  | nil => rfl
  | cons a l ih =>
    have ih := ih fun x hx => h x (by simp [hx])
    rw [List.mapM_cons, List.mapM_cons, ih]
    rcases hg : g a with p | y
    · rfl
    · obtain ⟨z, hz⟩ := h a (by simp) y hg
      rcases hm : l.mapM g with p | ys
      · simp only [bind, Except.bind, hz]
      · simp only [bind, Except.bind, hz, pure, Except.pure, List.mapM_cons]

/-! ## Dense histograms -/
section
variable [Cfg] {A V : Type} [Axis A]

theorem vecIterL_yields (h : VecHistogram A V) (n : Nat) : h.iterL.Yields (0, n) ((List.range n).map fun index => do
    let b ← Axis.bin h.axes index
    let bin ← expect b
    let value ← expect (h.valueAtIndex index)
    return { index, bin, value }) := by
  have h1 := (iterL_yields h.axes n).map (fun x : Nat × Axis.Interval A => do
    let value ← expect (h.valueAtIndex x.1)
    return ({ index := x.1, bin := x.2, value } : Item (Axis.Interval A) V))
  rw [List.map_map] at h1
  have e : ((fun r => r >>= fun x : Nat × Axis.Interval A => do
        let value ← expect (h.valueAtIndex x.1)
        return ({ index := x.1, bin := x.2, value } : Item (Axis.Interval A) V)) ∘ fun i => (do
        let b ← Axis.bin h.axes i
        let b ← expect b
        return (i, b))) = fun index => (do
        let b ← Axis.bin h.axes index
        let bin ← expect b
        let value ← expect (h.valueAtIndex index)
        return { index, bin, value }) := by
    funext i
    simp only [Function.comp, bind, Except.bind, pure, Except.pure]
    rcases Axis.bin h.axes i with p | (_ | b) <;> rfl
  rw [e] at h1
  exact h1

/-- **C67 (dense histograms, iter).** The `i`-th call of `next()` gives bin `i` with its interval and value, whatever happened before; it panics exactly if `bin(i)` does. -/
theorem C67_dense_iter {h : VecHistogram A V} {n : Nat} (hn : Axis.numBins h.axes = .ok n) (hv : n ≤ h.values.length) (k : Nat) :
    (h.iterL.pull k (0, n)).1 = (List.range k).map (fun i => if i < n then (do
      let b ← Axis.bin h.axes i
      let bin ← expect b
      let value ← expect (h.valueAtIndex i)
      return some ⟨i, bin, value⟩) else .ok none) ∧
    h.iterL.hint (h.iterL.pull k (0, n)).2 = n - k ∧
    (∀ i, i < n → ∃ v, h.valueAtIndex i = some v) ∧
    ∀ fuel, n < fuel → h.iterL.collect fuel (0, n) = h.iter := by
  have hi := (vecIterL_yields h n).pull k
  simp only [List.length_map, List.length_range] at hi
  refine ⟨?_, hi.2, fun i hi => ⟨h.values[i]'(by omega), List.getElem?_eq_getElem _⟩, fun fuel hf => ?_⟩
  · rw [hi.1]; congr 1; funext i
    rw [range_getElem_bind]
    split
    · simp only [bind, Except.bind, pure, Except.pure]
      rcases Axis.bin h.axes i with p | (_ | b)
      · rfl
      · rfl
      · simp only [expect]; cases h.valueAtIndex i <;> rfl
    · rfl
  · rw [(vecIterL_yields h n).collect fuel (by simpa using hf), mapM_id_map, VecHistogram.iter, Axis.iter]
    have hind : Axis.indices h.axes = .ok (List.range n) := by unfold Axis.indices; rw [hn]; rfl
    rw [hind]
    show _ = ((List.range n).mapM _ >>= fun it => it.mapM _)
    rw [← mapM_bind_of_ok]
    · congr 1; funext i
      simp only [bind, Except.bind, pure, Except.pure]
      rcases Axis.bin h.axes i with p | (_ | b) <;> rfl
    · intro i hi y hy
      have hi := List.mem_range.1 hi
      have hy1 : y.1 = i := by
        simp only [bind, Except.bind, pure, Except.pure] at hy
        rcases hb : Axis.bin h.axes i with p | (_ | b) <;> rw [hb] at hy
        · cases hy
        · cases hy
        · cases hy; rfl
      have hval : h.valueAtIndex i = some (h.values[i]'(by omega)) := List.getElem?_eq_getElem _
      obtain ⟨j, b⟩ := y
      change j = i at hy1
      subst hy1
      exact ⟨_, by simp only [hval]; rfl⟩

/-! ### iter_mut -/

/-- how many of the bins before `i` did not panic -/
def goodBefore (a : A) (i : Nat) : Nat := ((List.range i).filter fun j => match Axis.bin a j with | .ok (some _) => true | _ => false).length

theorem zipY_range (a : A) : ∀ (m i c : Nat) (l : List Nat), m ≤ l.length → (∀ j, j < l.length → l[j]? = some (c + j)) →
    Yields.zipY ((List.range' i m).map fun i => (do
        let b ← Axis.bin a i
        let b ← expect b
        return (i, b))) l =
      (List.range' i m).map fun j => (do
        let b ← Axis.bin a j
        let b ← expect b
        return ((j, b), c + ((List.range' i (j - i)).filter fun j => match Axis.bin a j with | .ok (some _) => true | _ => false).length)) := by
  intro m
  induction m with
  | zero => intro i c l _ _; rfl
  | succ m ih =>
    intro i c l hl hc
    have step : ∀ j, j ∈ List.range' (i + 1) m → List.range' i (j - i) = i :: List.range' (i + 1) (j - (i + 1)) := by
      intro j hj
      rw [List.mem_range'] at hj
      obtain ⟨t, ht, rfl⟩ := hj
      rw [show i + 1 + 1 * t - i = t + 1 by omega, List.range'_succ, show i + 1 + 1 * t - (i + 1) = t by omega]
    rw [List.range'_succ, List.map_cons, List.map_cons]
    have bad : ∀ p : Panic, (do
        let b ← Axis.bin a i
        let b ← expect b
        return (i, b) : Res (Nat × Axis.Interval A)) = .error p → (∀ b, Axis.bin a i ≠ .ok (some b)) := by
      intro p h b hb
      rw [hb] at h; cases h
    rcases hb : Axis.bin a i with p | (_ | b)
    · simp only [bind, Except.bind, Yields.zipY, List.cons.injEq, true_and]
      have := ih (i + 1) c l (by omega) hc
      simp only [bind, Except.bind] at this
      rw [this]
      apply List.map_congr_left
      intro j hj
      rw [step j hj, List.filter_cons, hb]
      rfl
    · simp only [bind, Except.bind, expect, Yields.zipY, List.cons.injEq, true_and]
      have := ih (i + 1) c l (by omega) hc
      simp only [bind, Except.bind, expect] at this
      rw [this]
      apply List.map_congr_left
      intro j hj
      rw [step j hj, List.filter_cons, hb]
      rfl
    · cases l with
      | nil => simp at hl
      | cons y l =>
        have hy := hc 0 (by simp)
        simp only [List.getElem?_cons_zero, Option.some.injEq, Nat.add_zero] at hy
        replace hy := hy.symm
        subst hy
        simp only [bind, Except.bind, pure, Except.pure, expect, Yields.zipY, List.cons.injEq, Nat.sub_self, List.range'_zero, List.filter_nil, List.length_nil, Nat.add_zero,
          true_and]
        have := ih (i + 1) (c + 1) l (by simpa using hl) (fun j hj => by
          have := hc (j + 1) (by simpa using hj)
          rw [List.getElem?_cons_succ] at this
          rw [this]; congr 1; omega)
        simp only [bind, Except.bind, pure, Except.pure, expect] at this
        rw [this]
        apply List.map_congr_left
        intro j hj
        rw [step j hj, List.filter_cons, hb]
        simp only [if_true, List.length_cons]
        rw [show c + 1 + (List.filter (fun j => match Axis.bin a j with | .ok (some _) => true | _ => false) (List.range' (i + 1) (j - (i + 1)))).length =
          c + ((List.filter (fun j => match Axis.bin a j with | .ok (some _) => true | _ => false) (List.range' (i + 1) (j - (i + 1)))).length + 1) by omega]

theorem iterMutL_yields {h : VecHistogram A V} {n : Nat} (hv : n ≤ h.values.length) :
    h.iterMutL.Yields ((0, n), List.range h.values.length) ((List.range n).map fun index => do
      let b ← Axis.bin h.axes index
      let bin ← expect b
      return { index, bin, value := goodBefore h.axes index }) := by
  have h1 := (iterL_yields h.axes n).zip (l := List.range h.values.length) (by simpa using hv)
  rw [List.range_eq_range' (n := n), zipY_range h.axes n 0 0 _ (by simpa using hv) (fun j hj => by
    simp at hj; simp [hj]), ← List.range_eq_range'] at h1
  have h2 := h1.map (fun x : (Nat × Axis.Interval A) × Nat => (.ok { index := x.1.1, bin := x.1.2, value := x.2 } : Res (Item (Axis.Interval A) Nat)))
  rw [List.map_map] at h2
  have e : ((fun r => r >>= fun x : (Nat × Axis.Interval A) × Nat => (.ok { index := x.1.1, bin := x.1.2, value := x.2 } : Res (Item (Axis.Interval A) Nat))) ∘
      fun j => (do
        let b ← Axis.bin h.axes j
        let b ← expect b
        return ((j, b), 0 + ((List.range' 0 (j - 0)).filter fun j => match Axis.bin h.axes j with | .ok (some _) => true | _ => false).length))) =
      fun index => (do
        let b ← Axis.bin h.axes index
        let bin ← expect b
        return { index, bin, value := goodBefore h.axes index }) := by
    funext i
    simp only [Function.comp, bind, Except.bind, pure, Except.pure, goodBefore, Nat.zero_add, Nat.sub_zero, List.range_eq_range']
    rcases Axis.bin h.axes i with p | (_ | b) <;> rfl
  rw [e] at h2
  exact h2

/-- **C67 (dense histograms, iter_mut).** The `i`-th call of `next()` on `iter_mut()` gives bin `i` with its interval and panics exactly if `bin(i)` does. The reference goes to the value
at position `goodBefore i`, the number of earlier calls that did not panic: bin `i` itself as long as no call panicked. -/
theorem C67_dense_iter_mut {h : VecHistogram A V} {n : Nat} (hn : Axis.numBins h.axes = .ok n) (hv : n ≤ h.values.length) (k : Nat) :
    h.startMut = .ok ((0, n), List.range h.values.length) ∧
    (h.iterMutL.pull k ((0, n), List.range h.values.length)).1 = (List.range k).map (fun i => if i < n then (do
      let b ← Axis.bin h.axes i
      let bin ← expect b
      return some ⟨i, bin, goodBefore h.axes i⟩) else .ok none) ∧
    h.iterMutL.hint (h.iterMutL.pull k ((0, n), List.range h.values.length)).2 = n - k ∧
    ∀ i, (∀ j, j < i → ∃ b, Axis.bin h.axes j = .ok (some b)) → goodBefore h.axes i = i := by
  have hi := (iterMutL_yields hv).pull k
  simp only [List.length_map, List.length_range] at hi
  refine ⟨by rw [VecHistogram.startMut, Axis.start, hn]; rfl, ?_, hi.2, fun i hg => ?_⟩
  · rw [hi.1]; congr 1; funext i
    rw [range_getElem_bind]
    split
    · simp only [bind, Except.bind, pure, Except.pure]
      rcases Axis.bin h.axes i with p | (_ | b) <;> rfl
    · rfl
  · rw [goodBefore, List.filter_eq_self.2, List.length_range]
    intro j hj
    obtain ⟨b, hb⟩ := hg j (List.mem_range.1 hj)
    rw [hb]

/-- until the first panic all references go to their own bin -/
theorem run_goodBefore {τ : Type} (a : A) (body : Item (Axis.Interval A) Nat → τ → τ × Flow) : ∀ (m i : Nat) (t : τ), goodBefore a i = i →
    Yields.run body ((List.range' i m).map fun index => (do
      let b ← Axis.bin a index
      let bin ← expect b
      return { index, bin, value := goodBefore a index })) t =
    Yields.run body ((List.range' i m).map fun index => (do
      let b ← Axis.bin a index
      let bin ← expect b
      return { index, bin, value := index })) t := by
  intro m
  induction m with
  | zero => intro i t _; rfl
  | succ m ih =>
    intro i t hg
    rw [List.range'_succ, List.map_cons, List.map_cons]
    rcases hb : Axis.bin a i with p | (_ | b)
    · rfl
    · rfl
    · simp only [bind, Except.bind, expect, pure, Except.pure, hg, Yields.run]
      rcases body ⟨i, b, i⟩ t with ⟨t', (_ | _ | p)⟩
      · have hg' : goodBefore a (i + 1) = i + 1 := by
          unfold goodBefore at hg ⊢
          rw [List.range_succ, List.filter_append, List.length_append, hg]
          simp [hb]
        have := ih (i + 1) t' hg'
        simp only [bind, Except.bind, expect, pure, Except.pure] at this
        exact this
      · rfl
      · rfl

theorem loopMut_run {h : VecHistogram A V} {n : Nat} (hn : Axis.numBins h.axes = .ok n) (hv : n ≤ h.values.length) {fuel : Nat} (hf : n < fuel)
    (f : Nat → Axis.Interval A → V → V × Flow) :
    h.loopMut fuel f = Yields.run (fun item : Item (Axis.Interval A) Nat => VecHistogram.setSlot (f item.index item.bin) item.value) ((List.range n).map fun index => (do
      let b ← Axis.bin h.axes index
      let bin ← expect b
      return { index, bin, value := index })) h := by
  have hs : h.startMut = .ok ((0, n), List.range h.values.length) := by rw [VecHistogram.startMut, Axis.start, hn]; rfl
  rw [VecHistogram.loopMut, hs]
  simp only
  rw [(iterMutL_yields hv).forLoop _ fuel h (by simpa using hf), List.range_eq_range']
  exact run_goodBefore h.axes _ n 0 h rfl

/-- **C67 (dense histograms, loops).** A loop over `iter_mut()` whose body does not break is the `iterMut` of C38 and C55, also if bins or bodies panic and if there are more or fewer values
than bins; likewise `values_mut()`. -/
theorem C67_dense_loop {h : VecHistogram A V} {fuel : Nat}
    (hf : h.values.length < fuel) : (∀ f : Nat → Axis.Interval A → Upd V, h.loopMut fuel (fun i b => noBreak (f i b)) = h.iterMut f) ∧
    ∀ f : Upd V, h.loopValuesMut fuel (noBreak f) = h.valuesMut f := by
  constructor
  · intro f
    rcases hn : Axis.numBins h.axes with p | n
    · simp only [VecHistogram.loopMut, VecHistogram.startMut, Axis.start, VecHistogram.iterMut, hn]; rfl
    have hs : h.startMut = .ok ((0, n), List.range h.values.length) := by rw [VecHistogram.startMut, Axis.start, hn]; rfl
    rw [VecHistogram.loopMut, hs, VecHistogram.iterMut, hn]
    simp only
    have key : ∀ (u : Nat → Upd V), (∀ i p v, Axis.bin h.axes i = .error p → u i v = (v, some p)) →
        (∀ i v, Axis.bin h.axes i = .ok none → u i v = (v, some .expectNone)) → (∀ i b v, Axis.bin h.axes i = .ok (some b) → u i v = f i b v) →
        ∀ (rest pre : List V) (fuel : Nat), pre.length + rest.length = h.values.length → rest.length < fuel →
        h.iterMutL.forLoop (fun item => VecHistogram.setSlot (noBreak (f item.index item.bin)) item.value) fuel ((pre.length, n), List.range' pre.length rest.length)
          ({ axes := h.axes, values := pre ++ rest } : VecHistogram A V) =
        ({ axes := h.axes, values := pre ++ ((updEach u pre.length (rest.take (n - pre.length))).1 ++ rest.drop (n - pre.length)) },
          (updEach u pre.length (rest.take (n - pre.length))).2.or (h.iterMutTail n)) := by
      intro u u1 u2 u3 rest
      induction rest with
      | nil =>
        intro pre fuel hp hfu
        obtain ⟨fuel, rfl⟩ : ∃ k, fuel = k + 1 := ⟨fuel - 1, by omega⟩
        have hp' : h.values.length = pre.length := by simpa using hp.symm
        simp only [LIter.forLoop, VecHistogram.iterMutL, LIter.map, LIter.zip, Axis.iterL, LIter.range, LIter.list, List.length_nil, List.range'_zero, List.take_nil, List.drop_nil, updEach,
          VecHistogram.iterMutTail, hp']
        by_cases hlt : pre.length < n
        · simp only [hlt, if_true]
          rcases hb : Axis.bin h.axes pre.length with p | (_ | b)
          · simp [bind, Except.bind]
          · simp [bind, Except.bind, expect]
          · simp [bind, Except.bind, expect, pure, Except.pure]
        · simp [hlt]
      | cons v rest ih =>
        intro pre fuel hp hfu
        obtain ⟨fuel, rfl⟩ : ∃ k, fuel = k + 1 := ⟨fuel - 1, by omega⟩
        simp only [List.length_cons] at hp hfu
        by_cases hlt : pre.length < n
        · have e1 : n - pre.length = (n - (pre.length + 1)) + 1 := by omega
          have hget : (pre ++ v :: rest)[pre.length]? = some v := by simp
          have hset : ∀ w, (pre ++ v :: rest).set pre.length w = (pre ++ [w]) ++ rest := by intro w; simp
          rw [e1, List.take_succ_cons, List.drop_succ_cons, updEach, LIter.forLoop]
          rcases hb : Axis.bin h.axes pre.length with p | (_ | b)
          · rw [u1 _ p v hb]
            simp [VecHistogram.iterMutL, LIter.map, LIter.zip, Axis.iterL, LIter.range, hlt, hb, bind, Except.bind]
          · rw [u2 _ v hb]
            simp [VecHistogram.iterMutL, LIter.map, LIter.zip, Axis.iterL, LIter.range, hlt, hb, bind, Except.bind, expect]
          · have hnext : h.iterMutL.next ((pre.length, n), List.range' pre.length (v :: rest).length) =
                (.ok (some ⟨pre.length, b, pre.length⟩), ((pre.length + 1, n), List.range' (pre.length + 1) rest.length)) := by
              simp [VecHistogram.iterMutL, LIter.map, LIter.zip, Axis.iterL, LIter.range, LIter.list, hlt, hb, bind, Except.bind, expect, pure, Except.pure, List.range'_succ]
            rw [hnext, u3 _ b v hb]
            simp only [VecHistogram.setSlot, hget, hset, noBreak]
            rcases hfv : f pre.length b v with ⟨v', (_ | p)⟩
            · simp only
              have := ih (pre ++ [v']) fuel (by simp; omega) (by omega)
              simp only [List.length_append, List.length_cons, List.length_nil, Nat.zero_add] at this
              rw [this]
              simp
            · simp
        · have e1 : n - pre.length = 0 := by omega
          have htail : h.iterMutTail n = none := by rw [VecHistogram.iterMutTail, if_neg (by omega)]
          rw [e1, htail]
          simp [LIter.forLoop, VecHistogram.iterMutL, LIter.map, LIter.zip, Axis.iterL, LIter.range, hlt, updEach]
    rw [List.range_eq_range']
    exact key _ (fun i p v hb => by simp only [hb]) (fun i v hb => by simp only [hb]) (fun i b v hb => by simp only [hb]) h.values [] fuel (by simp) hf
  · intro f
    rw [VecHistogram.loopValuesMut, (Yields.list (List.range h.values.length)).forLoop _ fuel h (by simpa using hf), VecHistogram.valuesMut, List.range_eq_range']
    have key : ∀ (m i : Nat) (pre rest : List V), pre.length = i → m = rest.length →
        Yields.run (fun slot => VecHistogram.setSlot (noBreak f) slot) ((List.range' i m).map .ok) ({ axes := h.axes, values := pre ++ rest } : VecHistogram A V) =
        ({ axes := h.axes, values := pre ++ (updEach (fun _ => f) i rest).1 }, (updEach (fun _ => f) i rest).2) := by
      intro m
      induction m with
      | zero => intro i pre rest _ hr; rw [List.length_eq_zero_iff.1 hr.symm]; rfl
      | succ m ih =>
        intro i pre rest hp hr
        cases rest with
        | nil => simp at hr
        | cons v rest =>
          have hget : (pre ++ v :: rest)[i]? = some v := by rw [← hp]; simp
          have hset : ∀ w, (pre ++ v :: rest).set i w = (pre ++ [w]) ++ rest := by intro w; rw [← hp]; simp
          rw [List.range'_succ, List.map_cons, updEach]
          simp only [Yields.run, VecHistogram.setSlot, hget, hset, noBreak]
          rcases hfv : f v with ⟨v', (_ | p)⟩
          · simp only
            rw [ih (i + 1) (pre ++ [v']) rest (by simp [hp]) (by simpa using hr)]
            simp
          · simp
    have hk : ∀ (j : Nat) (l : List V), updEach (fun _ => f) j l = updEach (fun _ => f) 0 l := by
      intro j l
      induction l generalizing j with
      | nil => rfl
      | cons v l ih => rw [updEach, updEach, ih (j + 1), ih 1]
    exact key h.values.length 0 [] h.values rfl rfl

/-- a loop over a list of places of a store with the given `get` and a body that changes only its own place -/
theorem run_places {τ : Type} (get : τ → Nat → Option V) (f : Nat → V → V × Flow) (body : Nat → τ → τ × Flow)
    (hbody : ∀ t x v, get t x = some v → (body x t).2 = (f x v).2 ∧ get (body x t).1 x = some (f x v).1 ∧ ∀ y, y ≠ x → get (body x t).1 y = get t y) :
    ∀ (l : List Nat), l.Nodup → ∀ (t : τ) (val : Nat → V), (∀ x ∈ l, get t x = some (val x)) →
    ∃ visited rest, l = visited ++ rest ∧ LoopRan (fun x => (f x (val x)).2) visited rest (Yields.run body (l.map .ok) t).2 ∧
      (∀ x ∈ visited, get (Yields.run body (l.map .ok) t).1 x = some (f x (val x)).1) ∧
      ∀ y, y ∉ visited → get (Yields.run body (l.map .ok) t).1 y = get t y := by
  intro l
  induction l with
  | nil => intro _ t val _; exact ⟨[], [], rfl, .inl ⟨rfl, by simp, rfl⟩, by simp, fun _ _ => rfl⟩
  | cons x l ih =>
    intro hnd t val hval
    obtain ⟨hx, hnd⟩ := List.nodup_cons.1 hnd
    obtain ⟨b1, b2, b3⟩ := hbody t x (val x) (hval x (by simp))
    rw [List.map_cons, Yields.run]
    rcases hb : body x t with ⟨t', fl⟩
    rw [hb] at b1 b2 b3
    simp only at b1 b2 b3
    rcases fl with _ | _ | p
    · simp only
      obtain ⟨vis, rest, h1, h2, h3, h4⟩ := ih hnd t' val (fun y hy => by
        rw [b3 y (fun e => hx (e ▸ hy))]; exact hval y (by simp [hy]))
      refine ⟨x :: vis, rest, by rw [h1]; rfl, ?_, ?_, ?_⟩
      · rcases h2 with ⟨r1, r2, r3⟩ | ⟨bf, la, r1, r2, r3⟩
        · refine .inl ⟨r1, ?_, r3⟩
          intro y hy
          rcases List.mem_cons.1 hy with rfl | hy
          · exact b1.symm
          · exact r2 y hy
        · refine .inr ⟨x :: bf, la, by rw [r1]; rfl, ?_, r3⟩
          intro y hy
          rcases List.mem_cons.1 hy with rfl | hy
          · exact b1.symm
          · exact r2 y hy
      · intro y hy
        rcases List.mem_cons.1 hy with rfl | hy
        · rw [h4 y (fun hy => hx (h1 ▸ List.mem_append_left _ hy)), b2]
        · exact h3 y hy
      · intro y hy
        simp only [List.mem_cons, not_or] at hy
        rw [h4 y hy.2, b3 y hy.1]
    · refine ⟨[x], l, rfl, .inr ⟨[], x, rfl, by simp, .inl ⟨b1.symm, rfl⟩⟩, ?_, ?_⟩
      · intro y hy
        rw [List.mem_singleton] at hy
        subst hy; exact b2
      · intro y hy
        rw [List.mem_singleton] at hy
        exact b3 y hy
    · refine ⟨[x], l, rfl, .inr ⟨[], x, rfl, by simp, .inr ⟨p, b1.symm, rfl⟩⟩, ?_, ?_⟩
      · intro y hy
        rw [List.mem_singleton] at hy
        subst hy; exact b2
      · intro y hy
        rw [List.mem_singleton] at hy
        exact b3 y hy

theorem run_map {α β τ : Type} (g : α → β) (body : β → τ → τ × Flow) : ∀ (l : List α) (t : τ),
    Yields.run body (l.map fun x => .ok (g x)) t = Yields.run (fun x => body (g x)) (l.map .ok) t
  | [], _ => rfl
  | x :: l, t => by
    simp only [List.map_cons, Yields.run]
    rcases body (g x) t with ⟨t', (_ | _ | p)⟩
    · exact run_map g body l t'
    · rfl
    · rfl

theorem run_inv {α τ : Type} (P : τ → Prop) (body : α → τ → τ × Flow) (hb : ∀ x t, P t → P (body x t).1) : ∀ (rs : List (Res α)) (t : τ), P t →
    P (Yields.run body rs t).1
  | [], _, h => h
  | .error _ :: _, _, h => h
  | .ok x :: rs, t, h => by
    have := hb x t h
    simp only [Yields.run]
    rcases hx : body x t with ⟨t', (_ | _ | p)⟩ <;> rw [hx] at this
    · exact run_inv P body hb rs t' this
    · exact this
    · exact this

theorem range_split {n : Nat} {vis rest : List Nat} (h : List.range n = vis ++ rest) : vis = List.range vis.length ∧ vis.length ≤ n ∧ (rest = [] ↔ vis.length = n) := by
  have h1 : vis = (List.range n).take vis.length := by rw [h]; simp
  have h2 := congrArg List.length h
  simp only [List.length_range, List.length_append] at h2
  refine ⟨?_, by omega, ?_⟩
  · conv_lhs => rw [h1, List.take_range, Nat.min_eq_left (by omega)]
  · rw [← List.length_eq_zero_iff]; omega

/-- **C67 (dense histograms, loops that end early).** A loop over `iter_mut()`, or over `values_mut()`, that may `break` or panic in its body visits the bins `0, …, k-1` in order,
each once, applies the body to exactly these and leaves all others alone; `k` is the number of bins, or the body of bin `k-1` ended the loop. (`bin i` and `val i` are the interval and
the value of bin `i` before the loop.) -/
theorem C67_dense_break {h : VecHistogram A V} {n : Nat} (ok : h.Ok n) {fuel : Nat} (hf : n < fuel) {bin : Nat → Axis.Interval A} {val : Nat → V}
    (hbin : ∀ i, i < n → Axis.bin h.axes i = .ok (some (bin i))) (hval : ∀ i, i < n → h.valueAtIndex i = some (val i)) :
    (∀ f : Nat → Axis.Interval A → V → V × Flow, ∃ k, k ≤ n ∧
      LoopRan (fun i => (f i (bin i) (val i)).2) (List.range k) (List.range' k (n - k)) (h.loopMut fuel f).2 ∧
      (h.loopMut fuel f).1.axes = h.axes ∧ (h.loopMut fuel f).1.Ok n ∧
      (∀ i, i < k → (h.loopMut fuel f).1.valueAtIndex i = some (f i (bin i) (val i)).1) ∧
      ∀ i, k ≤ i → (h.loopMut fuel f).1.valueAtIndex i = h.valueAtIndex i) ∧
    ∀ f : V → V × Flow, ∃ k, k ≤ n ∧
      LoopRan (fun i => (f (val i)).2) (List.range k) (List.range' k (n - k)) (h.loopValuesMut fuel f).2 ∧
      (h.loopValuesMut fuel f).1.axes = h.axes ∧ (h.loopValuesMut fuel f).1.Ok n ∧
      (∀ i, i < k → (h.loopValuesMut fuel f).1.valueAtIndex i = some (f (val i)).1) ∧
      ∀ i, k ≤ i → (h.loopValuesMut fuel f).1.valueAtIndex i = h.valueAtIndex i := by
  have main : ∀ (f : Nat → V → V × Flow) (r : VecHistogram A V × Option Panic),
      r = Yields.run (fun i => VecHistogram.setSlot (f i) i) ((List.range n).map .ok) h → ∃ k, k ≤ n ∧
      LoopRan (fun i => (f i (val i)).2) (List.range k) (List.range' k (n - k)) r.2 ∧ r.1.axes = h.axes ∧ r.1.Ok n ∧
      (∀ i, i < k → r.1.valueAtIndex i = some (f i (val i)).1) ∧ ∀ i, k ≤ i → r.1.valueAtIndex i = h.valueAtIndex i := by
    intro f r hr
    obtain ⟨vis, rest, h1, h2, h3, h4⟩ := run_places (τ := VecHistogram A V) (fun t x => t.values[x]?) f (fun i => VecHistogram.setSlot (f i) i) (by
      intro t x v hx
      have hx : t.values[x]? = some v := hx
      have hlt : x < t.values.length := (List.getElem?_eq_some_iff.1 hx).1
      simp only [VecHistogram.setSlot, hx]
      refine ⟨trivial, by rw [List.getElem?_set_self hlt], fun y hy => by rw [List.getElem?_set_ne (Ne.symm hy)]⟩)
      (List.range n) List.nodup_range h val (fun x hx => hval x (List.mem_range.1 hx))
    rw [← hr] at h2 h3 h4
    obtain ⟨s1, s2, s3⟩ := range_split h1
    have hinv := run_inv (fun t : VecHistogram A V => t.axes = h.axes ∧ t.values.length = h.values.length) (fun i => VecHistogram.setSlot (f i) i) (by
      intro x t ht
      unfold VecHistogram.setSlot
      split
      · exact ht
      · exact ⟨ht.1, by simpa using ht.2⟩) ((List.range n).map .ok) h ⟨rfl, rfl⟩
    rw [← hr] at hinv
    have hrest : rest = List.range' vis.length (n - vis.length) := by
      have : rest = (List.range n).drop vis.length := by rw [h1]; simp
      rw [this, List.range_eq_range', List.drop_range']; simp
    replace h2 : LoopRan (fun i => (f i (val i)).2) (List.range vis.length) (List.range' vis.length (n - vis.length)) r.2 := by
      rw [← hrest, ← s1]; exact h2
    refine ⟨vis.length, s2, h2, hinv.1, ⟨by rw [hinv.1]; exact ok.lawful, by rw [hinv.2]; exact ok.size⟩, ?_, ?_⟩
    · intro i hi
      exact h3 i (by rw [s1]; exact List.mem_range.2 hi)
    · intro i hi
      exact h4 i (by rw [s1, List.mem_range]; omega)
  constructor
  · intro f
    refine main (fun i => f i (bin i)) _ ?_
    rw [loopMut_run ok.lawful.numBins (by rw [ok.size]) hf]
    rw [← run_map (fun i => (⟨i, bin i, i⟩ : Item (Axis.Interval A) Nat)) (fun item => VecHistogram.setSlot (f item.index item.bin) item.value)]
    congr 1
    apply List.map_congr_left
    intro i hi
    rw [hbin i (List.mem_range.1 hi)]; rfl
  · intro f
    refine main (fun _ => f) _ ?_
    rw [VecHistogram.loopValuesMut, ok.size, (Yields.list (List.range n)).forLoop _ fuel h (by simpa using hf)]
end

/-! ## Sparse histograms -/
section
variable [Cfg] {A V : Type} [Axis A]

theorem hashIterL_yields (h : HashHistogram A V) (l : List (Nat × V)) : h.iterL.Yields l (l.map fun (index, value) => do
    let b ← Axis.bin h.axes index
    let bin ← expect b
    return { index, bin, value }) := by
  have := (Yields.list l).map (fun x : Nat × V => do
    let b ← Axis.bin h.axes x.1
    let bin ← expect b
    return ({ index := x.1, bin, value := x.2 } : Item (Axis.Interval A) V))
  rw [List.map_map] at this
  exact this

theorem hashIterMutL_yields (h : HashHistogram A V) (l : List Nat) : h.iterMutL.Yields l (l.map fun index => do
    let b ← Axis.bin h.axes index
    let bin ← expect b
    return { index, bin, value := index }) := by
  have := (Yields.list l).map (fun index => do
    let b ← Axis.bin h.axes index
    let bin ← expect b
    return ({ index, bin, value := index } : Item (Axis.Interval A) Nat))
  rw [List.map_map] at this
  exact this

/-- **C67 (sparse histograms, iter).** The `i`-th call of `next()` gives the `i`-th stored bin in the map's order with its interval and value, whatever happened before; it panics exactly
if `bin` does for this bin. `iter_mut()` yields the same bins, each with the reference to its own value, also after caught panics. -/
theorem C67_sparse {h : HashHistogram A V} (o : h.values.Order) (k : Nat) :
    (h.iterL.pull k o.list).1 = (List.range k).map (fun i => match o.list[i]? with
      | some (index, value) => (do
        let b ← Axis.bin h.axes index
        let bin ← expect b
        return some ⟨index, bin, value⟩)
      | none => .ok none) ∧
    (h.iterMutL.pull k (o.list.map (·.1))).1 = (List.range k).map (fun i => match o.list[i]? with
      | some (index, _) => (do
        let b ← Axis.bin h.axes index
        let bin ← expect b
        return some ⟨index, bin, index⟩)
      | none => .ok none) ∧
    h.iterL.hint (h.iterL.pull k o.list).2 = h.values.len - k ∧ h.iterMutL.hint (h.iterMutL.pull k (o.list.map (·.1))).2 = h.values.len - k ∧
    ∀ fuel, h.values.len < fuel → h.iterL.collect fuel o.list = h.iter o := by
  have hlen : o.list.length = h.values.len := o.perm.length_eq
  have hi := (hashIterL_yields h o.list).pull k
  have hm := (hashIterMutL_yields h (o.list.map (·.1))).pull k
  simp only [List.length_map] at hi hm
  refine ⟨?_, ?_, by rw [hi.2, hlen], by rw [hm.2, hlen], fun fuel hf => ?_⟩
  · rw [hi.1]; congr 1; funext i
    rw [List.getElem?_map]
    cases o.list[i]? with
    | none => rfl
    | some x =>
      simp only [Option.map_some, bind, Except.bind, pure, Except.pure]
      rcases Axis.bin h.axes x.1 with p | (_ | b) <;> rfl
  · rw [hm.1]; congr 1; funext i
    rw [List.getElem?_map, List.getElem?_map]
    cases o.list[i]? with
    | none => rfl
    | some x =>
      simp only [Option.map_some, bind, Except.bind, pure, Except.pure]
      rcases Axis.bin h.axes x.1 with p | (_ | b) <;> rfl
  · rw [(hashIterL_yields h o.list).collect fuel (by simpa [hlen] using hf), mapM_id_map]
    rfl

theorem HMap.insert_get {m : HMap Nat V} {k : Nat} {v : V} (h : m.get k = some v) : m.insert k v = m := by
  obtain ⟨l⟩ := m
  unfold HMap.insert HMap.get at *
  congr 1
  simp only at h ⊢
  induction l with
  | nil => cases h
  | cons x l ih =>
    obtain ⟨k', v'⟩ := x
    rw [HMap.find] at h
    rw [HMap.put]
    split
    · rename_i hk
      rw [if_pos hk] at h
      cases h; rfl
    · rename_i hk
      rw [if_neg hk] at h
      rw [ih h]

/-- **C67 (sparse histograms, loops).** A loop whose body does not break is the `iterMut` (`valuesMut`) of C38 and C55. -/
theorem C67_sparse_loop {h : HashHistogram A V} (o : h.values.Order) {fuel : Nat} (hf : h.values.len < fuel) :
    (∀ f : Nat → Axis.Interval A → Upd V, h.loopMut o fuel (fun i b => noBreak (f i b)) = h.iterMut o f) ∧
    ∀ f : Upd V, h.loopValuesMut o fuel (noBreak f) = h.valuesMut o f := by
  have hlen : o.list.length = h.values.len := o.perm.length_eq
  have hkeys : ∀ k ∈ o.list.map (·.1), ∃ v, h.values.get k = some v := fun k hk =>
    (HMap.get_isSome h.values k).2 ((o.perm.map (·.1)).mem_iff.1 hk)
  have hstep : ∀ (m : HMap Nat V) (k : Nat) (w : V) (ks : List Nat), (∀ x ∈ ks, ∃ v, m.get x = some v) → ∀ x ∈ ks, ∃ v, (m.insert k w).get x = some v := by
    intro m k w ks hm x hx
    rw [HMap.get_insert]
    split
    · exact ⟨_, rfl⟩
    · exact hm x hx
  constructor
  · intro f
    rw [HashHistogram.loopMut, (hashIterMutL_yields h _).forLoop _ fuel h (by simpa [hlen] using hf), HashHistogram.iterMut]
    have key : ∀ (u : Nat → Upd V), (∀ i p v, Axis.bin h.axes i = .error p → u i v = (v, some p)) →
        (∀ i v, Axis.bin h.axes i = .ok none → u i v = (v, some .expectNone)) → (∀ i b v, Axis.bin h.axes i = .ok (some b) → u i v = f i b v) →
        ∀ (ks : List Nat) (m : HMap Nat V), (∀ k ∈ ks, ∃ v, m.get k = some v) →
        Yields.run (fun item : Item (Axis.Interval A) Nat => HashHistogram.setKey (noBreak (f item.index item.bin)) item.value) (ks.map fun index => (do
          let b ← Axis.bin h.axes index
          let bin ← expect b
          return ({ index, bin, value := index } : Item (Axis.Interval A) Nat))) ({ axes := h.axes, values := m } : HashHistogram A V) =
        ({ axes := h.axes, values := (HashHistogram.updKeys u ks m).1 }, (HashHistogram.updKeys u ks m).2) := by
      intro u u1 u2 u3 ks
      induction ks with
      | nil => intro m _; rfl
      | cons x ks ih =>
        intro m hm
        obtain ⟨v, hv⟩ := hm x (by simp)
        rw [List.map_cons, HashHistogram.updKeys, hv]
        rcases hb : Axis.bin h.axes x with p | (_ | b)
        · simp only [u1 x p v hb, HMap.insert_get hv]; rfl
        · simp only [u2 x v hb, HMap.insert_get hv]; rfl
        · simp only [bind, Except.bind, expect, pure, Except.pure, Yields.run, HashHistogram.setKey, hv, noBreak]
          rw [u3 x b v hb]
          rcases hfv : f x b v with ⟨v', (_ | p)⟩
          · exact ih (m.insert x v') (hstep m x v' ks fun y hy => hm y (by simp [hy]))
          · rfl
    exact key _ (fun i p v hb => by simp only [hb]) (fun i v hb => by simp only [hb]) (fun i b v hb => by simp only [hb]) _ _ hkeys
  · intro f
    rw [HashHistogram.loopValuesMut, (Yields.list _).forLoop _ fuel h (by simpa [hlen] using hf), HashHistogram.valuesMut]
    have key : ∀ (ks : List Nat) (m : HMap Nat V), (∀ k ∈ ks, ∃ v, m.get k = some v) →
        Yields.run (fun key => HashHistogram.setKey (noBreak f) key) (ks.map .ok) ({ axes := h.axes, values := m } : HashHistogram A V) =
        ({ axes := h.axes, values := (HashHistogram.updKeys (fun _ => f) ks m).1 }, (HashHistogram.updKeys (fun _ => f) ks m).2) := by
      intro ks
      induction ks with
      | nil => intro m _; rfl
      | cons x ks ih =>
        intro m hm
        obtain ⟨v, hv⟩ := hm x (by simp)
        rw [List.map_cons, HashHistogram.updKeys, hv]
        simp only [Yields.run, HashHistogram.setKey, hv, noBreak]
        rcases hfv : f v with ⟨v', (_ | p)⟩
        · exact ih (m.insert x v') (hstep m x v' ks fun y hy => hm y (by simp [hy]))
        · rfl
    exact key _ _ hkeys

/-- **C67 (sparse histograms, loops that end early).** A loop over `iter_mut()`, or over `values_mut()`, that may `break` or panic in its body visits a beginning of the stored bins in the
map's order, each once, applies the body to exactly these and leaves all others alone; no bin appears or disappears. (`bin i` and `val i` are the interval and the value of bin `i` before
the loop.) -/
theorem C67_sparse_break {h : HashHistogram A V} (hnd : h.values.NodupKeys) (o : h.values.Order) {fuel : Nat} (hf : h.values.len < fuel) {bin : Nat → Axis.Interval A}
    {val : Nat → V} (hbin : ∀ i, i ∈ h.values.keys → Axis.bin h.axes i = .ok (some (bin i))) (hval : ∀ i, i ∈ h.values.keys → h.valueAtIndex i = some (val i)) :
    (∀ f : Nat → Axis.Interval A → V → V × Flow, ∃ visited rest, o.list.map (·.1) = visited ++ rest ∧
      LoopRan (fun i => (f i (bin i) (val i)).2) visited rest (h.loopMut o fuel f).2 ∧
      (h.loopMut o fuel f).1.axes = h.axes ∧
      (∀ i, i ∈ visited → (h.loopMut o fuel f).1.valueAtIndex i = some (f i (bin i) (val i)).1) ∧
      ∀ i, i ∉ visited → (h.loopMut o fuel f).1.valueAtIndex i = h.valueAtIndex i) ∧
    ∀ f : V → V × Flow, ∃ visited rest, o.list.map (·.1) = visited ++ rest ∧
      LoopRan (fun i => (f (val i)).2) visited rest (h.loopValuesMut o fuel f).2 ∧
      (h.loopValuesMut o fuel f).1.axes = h.axes ∧
      (∀ i, i ∈ visited → (h.loopValuesMut o fuel f).1.valueAtIndex i = some (f (val i)).1) ∧
      ∀ i, i ∉ visited → (h.loopValuesMut o fuel f).1.valueAtIndex i = h.valueAtIndex i := by
  have hlen : o.list.length = h.values.len := o.perm.length_eq
  have hp : (o.list.map (·.1)).Perm h.values.keys := o.perm.map (·.1)
  have main : ∀ (f : Nat → V → V × Flow) (r : HashHistogram A V × Option Panic),
      r = Yields.run (fun i => HashHistogram.setKey (f i) i) ((o.list.map (·.1)).map .ok) h → ∃ visited rest, o.list.map (·.1) = visited ++ rest ∧
      LoopRan (fun i => (f i (val i)).2) visited rest r.2 ∧ r.1.axes = h.axes ∧
      (∀ i, i ∈ visited → r.1.valueAtIndex i = some (f i (val i)).1) ∧ ∀ i, i ∉ visited → r.1.valueAtIndex i = h.valueAtIndex i := by
    intro f r hr
    obtain ⟨vis, rest, h1, h2, h3, h4⟩ := run_places (τ := HashHistogram A V) (fun t x => t.values.get x) f (fun i => HashHistogram.setKey (f i) i) (by
      intro t x v hx
      have hx : t.values.get x = some v := hx
      simp only [HashHistogram.setKey, hx]
      exact ⟨trivial, HMap.get_insert_self _ _ _, fun y hy => HMap.get_insert_ne _ _ (Ne.symm hy)⟩)
      (o.list.map (·.1)) (hp.nodup_iff.2 hnd) h val (fun x hx => hval x (hp.mem_iff.1 hx))
    have hinv := run_inv (fun t : HashHistogram A V => t.axes = h.axes) (fun i => HashHistogram.setKey (f i) i) (by
      intro x t ht
      unfold HashHistogram.setKey
      split
      · exact ht
      · exact ht) ((o.list.map (·.1)).map .ok) h rfl
    rw [← hr] at h2 h3 h4 hinv
    exact ⟨vis, rest, h1, h2, hinv, h3, h4⟩
  constructor
  · intro f
    refine main (fun i => f i (bin i)) _ ?_
    rw [HashHistogram.loopMut, (hashIterMutL_yields h _).forLoop _ fuel h (by simpa [hlen] using hf)]
    rw [← run_map (fun i => (⟨i, bin i, i⟩ : Item (Axis.Interval A) Nat)) (fun item => HashHistogram.setKey (f item.index item.bin) item.value)]
    congr 1
    apply List.map_congr_left
    intro i hi
    rw [hbin i (hp.mem_iff.1 hi)]; rfl
  · intro f
    refine main (fun _ => f) _ ?_
    rw [HashHistogram.loopValuesMut, (Yields.list _).forLoop _ fuel h (by simpa [hlen] using hf)]
end

/-! ## After a caught panic -/

/-- **C67 (counterexample).** A dense `iter_mut()` that is used again after a panic of `next()` was caught pairs bins with values of other bins: with overflow checks, the bins 13 to 20 of the
axis with 20 bins of width 1 starting at 0 over `u8` cannot be computed (C02), and the item of bin 21, which follows, holds the reference to the value of bin 13. -/
theorem C67_counterexample_caught_panic (κ : Cfg) (hc : κ.checked = true) (hw : κ.usizeBits = 64) : ∃ a : Uniform (MInt .u8),
    Uniform.withStepSize 20 (.lit 0) (.lit 1) = .ok (.ok a) ∧ ∃ h : VecHistogram (Uniform (MInt .u8)) (MInt .u8),
      VecHistogram.new a = .ok h ∧ ∃ start, h.startMut = .ok start ∧
      (h.iterMutL.pull 22 start).1[21]? = some (.ok (some ⟨21, .Overflow (.lit 20), 13⟩)) := by
  have e : κ = dbg64 := by
    obtain ⟨b, c, _⟩ := κ
    simp only at hc hw
    subst hc hw
    rfl
  subst e
  letI := dbg64
  exact ⟨⟨20, .lit 0, .lit 20, .lit 1⟩, by decide, ⟨⟨20, .lit 0, .lit 20, .lit 1⟩, List.replicate 22 (.lit 0)⟩, by decide +kernel, _, rfl, by
    have h := (C67_dense_iter_mut (h := (⟨⟨20, .lit 0, .lit 20, .lit 1⟩, List.replicate 22 (.lit 0)⟩ : VecHistogram (Uniform (MInt .u8)) (MInt .u8))) (n := 22) rfl (by decide) 22).2.1
    have g : goodBefore (⟨20, .lit 0, .lit 20, .lit 1⟩ : Uniform (MInt .u8)) 21 = 13 := by decide +kernel
    exact (congrArg (·[21]?) h).trans (by rw [List.getElem?_map, List.getElem?_range (by decide), ← g]; rfl)⟩
end NdHist
