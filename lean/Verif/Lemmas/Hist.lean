import Verif.SpecHist
import Verif.Lemmas.Basic
import Verif.Lemmas.HMap
/-!
# Lemmas about histograms
-/
namespace NdHist
variable {V : Type}

/-! ## loops over places -/

theorem updAt_fst (f : Upd V) (i : Nat) (l : List V) : (updAt f i l).1 = l.modify i (fun v => (f v).1) := by
  induction l generalizing i with
  | nil => cases i <;> rfl
  | cons v vs ih =>
    cases i with
    | zero => rfl
    | succ i => simp [updAt, ih]

theorem updAt_snd (f : Upd V) (i : Nat) (l : List V) :
    (updAt f i l).2 = match l[i]? with | some v => (f v).2 | none => none := by
  induction l generalizing i with
  | nil => cases i <;> rfl
  | cons v vs ih =>
    cases i with
    | zero => rfl
    | succ i => simp [updAt, ih]

theorem updAt_length (f : Upd V) (i : Nat) (l : List V) : (updAt f i l).1.length = l.length := by
  rw [updAt_fst, List.length_modify]

theorem updEach_length (f : Nat → Upd V) (i : Nat) (l : List V) : (updEach f i l).1.length = l.length := by
  induction l generalizing i with
  | nil => rfl
  | cons v vs ih =>
    unfold updEach
    split <;> simp_all

/-- without a panic every element is updated -/
theorem updEach_ok {f : Nat → Upd V} {i : Nat} {l : List V} (h : (updEach f i l).2 = none) (j : Nat) :
    (updEach f i l).1[j]? = (l[j]?).map (fun v => (f (i + j) v).1) ∧
      ∀ v, l[j]? = some v → (f (i + j) v).2 = none := by
  induction l generalizing i j with
  | nil => simp [updEach]
  | cons v vs ih =>
    cases hf : f i v with
    | mk v' o =>
      cases o with
      | some p => simp [updEach, hf] at h
      | none =>
        simp only [updEach, hf] at h ⊢
        cases j with
        | zero => simp [hf]
        | succ j =>
          have := ih h j
          rw [show i + 1 + j = i + (j + 1) by omega] at this
          simpa using this

/-- a panic: the elements before the panicking one are updated, that one as far as its update got, the others not
at all -/
theorem updEach_panic {f : Nat → Upd V} {i : Nat} {l : List V} {p : Panic} (h : (updEach f i l).2 = some p) :
    ∃ (k : Nat) (v : V), l[k]? = some v ∧ (f (i + k) v).2 = some p ∧
      ∀ j, (updEach f i l).1[j]? = if j ≤ k then (l[j]?).map (fun v => (f (i + j) v).1) else l[j]? := by
  induction l generalizing i with
  | nil => simp [updEach] at h
  | cons v vs ih =>
    cases hf : f i v with
    | mk v' o =>
      cases o with
      | some q =>
        simp only [updEach, hf, Option.some.injEq] at h ⊢
        subst h
        refine ⟨0, v, by simp, by simp [hf], ?_⟩
        intro j
        cases j with
        | zero => simp [hf]
        | succ j => simp
      | none =>
        simp only [updEach, hf] at h ⊢
        obtain ⟨k, w, h1, h2, h3⟩ := ih h
        refine ⟨k + 1, w, by simpa using h1, by rw [← h2]; congr 2; omega, ?_⟩
        intro j
        cases j with
        | zero => simp [hf]
        | succ j =>
          have := h3 j
          rw [show i + 1 + j = i + (j + 1) by omega] at this
          simp only [List.getElem?_cons_succ, this, Nat.add_le_add_iff_right]

theorem updEach_none {f : Nat → Upd V} {i : Nat} {l : List V}
    (h : ∀ j v, l[j]? = some v → (f (i + j) v).2 = none) : (updEach f i l).2 = none := by
  cases hp : (updEach f i l).2 with
  | none => rfl
  | some p =>
    obtain ⟨k, v, h1, h2, _⟩ := updEach_panic hp
    rw [h k v h1] at h2; cases h2

theorem zipUpd_length (f : V → Upd V) (l r : List V) : (zipUpd f l r).1.length = l.length := by
  induction l generalizing r with
  | nil => rfl
  | cons v vs ih =>
    cases r with
    | nil => rfl
    | cons w ws =>
      unfold zipUpd
      split <;> simp_all

theorem zipUpd_ok {f : V → Upd V} {l r : List V} (hlen : l.length = r.length) (h : (zipUpd f l r).2 = none) (j : Nat) :
    ∀ x y, l[j]? = some x → r[j]? = some y → (zipUpd f l r).1[j]? = some (f y x).1 ∧ (f y x).2 = none := by
  induction l generalizing r j with
  | nil => simp
  | cons v vs ih =>
    cases r with
    | nil => simp
    | cons w ws =>
      cases hf : f w v with
      | mk v' o =>
        cases o with
        | some p => simp [zipUpd, hf] at h
        | none =>
          simp only [zipUpd, hf] at h ⊢
          cases j with
          | zero => simp [hf]
          | succ j =>
            simpa using ih (by simpa using hlen) h j

theorem zipRes_eq_ok {f : V → V → Res V} {l r : List V} {z : List V} (hlen : l.length = r.length)
    (h : zipRes f l r = .ok z) : z.length = l.length ∧
      ∀ (j : Nat) (x y : V), l[j]? = some x → r[j]? = some y → ∃ w, f x y = .ok w ∧ z[j]? = some w := by
  induction l generalizing r z with
  | nil =>
    simp only [zipRes, pure, Except.pure, Except.ok.injEq] at h
    subst h; simp
  | cons v vs ih =>
    cases r with
    | nil => simp at hlen
    | cons w ws =>
      simp only [zipRes, Res.bind_eq_ok] at h
      obtain ⟨x, hx, xs, hxs, he⟩ := h
      simp only [pure, Except.pure, Except.ok.injEq] at he
      subst he
      obtain ⟨h1, h2⟩ := ih (by simpa using hlen) hxs
      refine ⟨by simp [h1], ?_⟩
      intro j
      cases j with
      | zero => intro a b ha hb; simp at ha hb; subst ha hb; exact ⟨x, hx, rfl⟩
      | succ j => simpa using h2 j

/-! ## dense histograms -/

namespace VecHistogram
variable {A : Type} [Cfg] [Axis A]

theorem call_eq (h : VecHistogram A V) (call : Call V (Axis.Coordinate A)) :
    h.call call = match h.valueMut call.coord call.on with
      | .error p => (h, some p)
      | .ok none => (h, none)
      | .ok (some r) => r := by
  cases call <;> simp only [call, fill, fillWith, fillWithWeighted, Call.coord, Call.on] <;>
    (generalize h.valueMut _ _ = x; rcases x with p | _ | r <;> rfl)

theorem call_error {h : VecHistogram A V} {call : Call V (Axis.Coordinate A)} {p : Panic}
    (hi : Axis.index h.axes call.coord = .error p) : h.call call = (h, some p) := by
  rw [call_eq]; simp only [valueMut, hi]; rfl

theorem call_none {h : VecHistogram A V} {call : Call V (Axis.Coordinate A)}
    (hi : Axis.index h.axes call.coord = .ok none) : h.call call = (h, none) := by
  rw [call_eq]; simp only [valueMut, hi]; rfl

theorem call_some {h : VecHistogram A V} {call : Call V (Axis.Coordinate A)} {i : Nat} {v : V}
    (hi : Axis.index h.axes call.coord = .ok (some i)) (hv : h.valueAtIndex i = some v) :
    h.call call = ({ h with values := h.values.modify i (fun v => (call.on v).1) }, (call.on v).2) := by
  rw [call_eq]
  have hv' : h.values[i]? = some v := hv
  simp only [valueMut, hi, valueAtIndexMut, bind, Except.bind, hv', pure, Except.pure, updAt_fst, updAt_snd]

theorem call_out {h : VecHistogram A V} {call : Call V (Axis.Coordinate A)} {i : Nat}
    (hi : Axis.index h.axes call.coord = .ok (some i)) (hv : h.valueAtIndex i = none) :
    h.call call = (h, none) := by
  rw [call_eq]
  have hv' : h.values[i]? = none := hv
  simp only [valueMut, hi, valueAtIndexMut, bind, Except.bind, hv', pure, Except.pure]

theorem call_axes (h : VecHistogram A V) (call : Call V (Axis.Coordinate A)) : (h.call call).1.axes = h.axes := by
  rcases hi : Axis.index h.axes call.coord with p | _ | i
  · rw [call_error hi]
  · rw [call_none hi]
  · cases hv : h.valueAtIndex i with
    | none => rw [call_out hi hv]
    | some v => rw [call_some hi hv]

theorem call_length (h : VecHistogram A V) (call : Call V (Axis.Coordinate A)) :
    (h.call call).1.values.length = h.values.length := by
  rcases hi : Axis.index h.axes call.coord with p | _ | i
  · rw [call_error hi]
  · rw [call_none hi]
  · cases hv : h.valueAtIndex i with
    | none => rw [call_out hi hv]
    | some v => rw [call_some hi hv]; simp

/-- the effect of a call on bin `j` -/
theorem call_get (h : VecHistogram A V) (call : Call V (Axis.Coordinate A)) (j : Nat) :
    (h.call call).1.valueAtIndex j =
      if Axis.index h.axes call.coord = .ok (some j) then (h.valueAtIndex j).map fun v => (call.on v).1
      else h.valueAtIndex j := by
  rcases hi : Axis.index h.axes call.coord with p | _ | i
  · simp [call_error hi]
  · simp [call_none hi]
  · cases hv : h.valueAtIndex i with
    | none =>
      rw [call_out hi hv]
      simp only [Except.ok.injEq, Option.some.injEq]
      split
      · rename_i e; subst e; rw [hv]; rfl
      · rfl
    | some v =>
      rw [call_some hi hv]
      simp only [Except.ok.injEq, Option.some.injEq, valueAtIndex, List.getElem?_modify]
      split
      · rename_i e; subst e; rfl
      · simp

theorem Ok.get {h : VecHistogram A V} {n : Nat} (ok : h.Ok n) {i : Nat} (hi : i < n) : ∃ v, h.valueAtIndex i = some v := by
  have : i < h.values.length := ok.size ▸ hi
  exact ⟨h.values[i], List.getElem?_eq_getElem this⟩

theorem Ok.get_none {h : VecHistogram A V} {n : Nat} (ok : h.Ok n) {i : Nat} : h.valueAtIndex i = none ↔ n ≤ i := by
  rw [valueAtIndex, List.getElem?_eq_none_iff, ok.size]

theorem Ok.call {h : VecHistogram A V} {n : Nat} (ok : h.Ok n) (call : Call V (Axis.Coordinate A)) :
    (h.call call).1.Ok n :=
  ⟨by rw [call_axes]; exact ok.lawful, by rw [call_length]; exact ok.size⟩

theorem callAllCaught_cons (h : VecHistogram A V) (c : Call V (Axis.Coordinate A)) (cs) :
    h.callAllCaught (c :: cs) = (h.call c).1.callAllCaught cs := rfl

theorem callAllCaught_axes (h : VecHistogram A V) (calls : List (Call V (Axis.Coordinate A))) :
    (h.callAllCaught calls).axes = h.axes := by
  induction calls generalizing h with
  | nil => rfl
  | cons c cs ih => rw [callAllCaught_cons, ih, call_axes]

theorem callAllCaught_length (h : VecHistogram A V) (calls : List (Call V (Axis.Coordinate A))) :
    (h.callAllCaught calls).values.length = h.values.length := by
  induction calls generalizing h with
  | nil => rfl
  | cons c cs ih => rw [callAllCaught_cons, ih, call_length]

theorem callAllCaught_get (h : VecHistogram A V) (calls : List (Call V (Axis.Coordinate A))) (j : Nat) :
    (h.callAllCaught calls).valueAtIndex j = (h.valueAtIndex j).map (filledWith (callsIn h.axes j calls)) := by
  induction calls generalizing h with
  | nil => simp only [callAllCaught, callsIn, filledWith, List.foldl_nil, List.filter_nil]; cases h.valueAtIndex j <;> rfl
  | cons c cs ih =>
    rw [callAllCaught_cons, ih, call_axes, call_get]
    unfold callsIn
    rw [List.filter_cons]
    split
    · rename_i hc
      simp only [hc, decide_true, if_true]
      cases h.valueAtIndex j <;> rfl
    · rename_i hc
      simp only [hc, decide_false, Bool.false_eq_true, if_false]

/-- stopping at a panic: the state is the one after the calls up to and including the panicking one -/
theorem callAll_panic {h : VecHistogram A V} {calls : List (Call V (Axis.Coordinate A))} {p : Panic}
    (hp : (h.callAll calls).2 = some p) :
    ∃ pre c post, calls = pre ++ c :: post ∧ (h.callAll pre).2 = none ∧
      ((h.callAll pre).1.call c).2 = some p ∧ (h.callAll calls).1 = h.callAllCaught (pre ++ [c]) := by
  induction calls generalizing h with
  | nil => simp [callAll] at hp
  | cons c cs ih =>
    rcases hc : h.call c with ⟨h', _ | q⟩
    · simp only [callAll, hc] at hp ⊢
      obtain ⟨pre, d, post, h1, h2, h3, h4⟩ := ih hp
      refine ⟨c :: pre, d, post, by simp [h1], by simp [callAll, hc, h2], by simp [callAll, hc, h3], ?_⟩
      rw [h4, List.cons_append, callAllCaught_cons, hc]
    · simp only [callAll, hc, Option.some.injEq] at hp ⊢
      subst hp
      exact ⟨[], c, cs, rfl, rfl, by simp [callAll, hc], by simp [callAllCaught, hc]⟩

theorem callAll_ok {h : VecHistogram A V} {calls : List (Call V (Axis.Coordinate A))}
    (hp : (h.callAll calls).2 = none) : (h.callAll calls).1 = h.callAllCaught calls := by
  induction calls generalizing h with
  | nil => rfl
  | cons c cs ih =>
    rcases hc : h.call c with ⟨h', _ | q⟩
    · simp only [callAll, hc] at hp ⊢
      rw [ih hp, callAllCaught_cons, hc]
    · simp [callAll, hc] at hp

theorem Ok.callAllCaught {h : VecHistogram A V} {n : Nat} (ok : h.Ok n) (calls : List (Call V (Axis.Coordinate A))) :
    (h.callAllCaught calls).Ok n :=
  ⟨by rw [callAllCaught_axes]; exact ok.lawful, by rw [callAllCaught_length]; exact ok.size⟩

theorem ext_get {h h' : VecHistogram A V} (ha : h.axes = h'.axes) (hv : ∀ i, h.valueAtIndex i = h'.valueAtIndex i) :
    h = h' := by
  obtain ⟨a, l⟩ := h
  obtain ⟨a', l'⟩ := h'
  simp only at ha; subst ha
  have : l = l' := List.ext_getElem? hv
  rw [this]
end VecHistogram

/-! ## sparse histograms -/

namespace HashHistogram
variable {A : Type} [Cfg] [Axis A] [RDefault V]

theorem call_eq (h : HashHistogram A V) (call : Call V (Axis.Coordinate A)) :
    h.call call = match Axis.index h.axes call.coord with
      | .error p => (h, some p)
      | .ok none => (h, none)
      | .ok (some i) => let r := entryUpd h.values i call.on; ({ h with values := r.1 }, r.2) := by
  cases call <;> rfl

theorem call_axes (h : HashHistogram A V) (call : Call V (Axis.Coordinate A)) : (h.call call).1.axes = h.axes := by
  rw [call_eq]; split <;> rfl

theorem call_get (h : HashHistogram A V) (call : Call V (Axis.Coordinate A)) (j : Nat) :
    (h.call call).1.valueAtIndex j =
      if Axis.index h.axes call.coord = .ok (some j) then some (call.on ((h.valueAtIndex j).getD RDefault.dflt)).1
      else h.valueAtIndex j := by
  rw [call_eq]
  rcases hi : Axis.index h.axes call.coord with p | _ | i
  · simp
  · simp
  · simp only [valueAtIndex, entryUpd, HMap.get_insert, Except.ok.injEq, Option.some.injEq]
    split
    · rename_i e; subst e; rfl
    · rfl

theorem Ok.call {h : HashHistogram A V} {n : Nat} (ok : h.Ok n) (call : Call V (Axis.Coordinate A)) :
    (h.call call).1.Ok n := by
  refine ⟨by rw [call_axes]; exact ok.lawful, ?_, ?_⟩
  · rw [call_eq]
    rcases hi : Axis.index h.axes call.coord with p | _ | i
    · exact ok.nodup
    · exact ok.nodup
    · exact HMap.nodup_insert ok.nodup _ _
  · rw [call_eq]
    rcases hi : Axis.index h.axes call.coord with p | _ | i
    · exact ok.valid
    · exact ok.valid
    · intro k hk
      simp only [entryUpd, HMap.mem_keys_insert] at hk
      rcases hk with rfl | hk
      · exact ok.lawful.index_lt _ _ hi
      · exact ok.valid k hk

theorem callAllCaught_cons (h : HashHistogram A V) (c : Call V (Axis.Coordinate A)) (cs) :
    h.callAllCaught (c :: cs) = (h.call c).1.callAllCaught cs := rfl

theorem callAllCaught_axes (h : HashHistogram A V) (calls : List (Call V (Axis.Coordinate A))) :
    (h.callAllCaught calls).axes = h.axes := by
  induction calls generalizing h with
  | nil => rfl
  | cons c cs ih => rw [callAllCaught_cons, ih, call_axes]

theorem callAllCaught_get (h : HashHistogram A V) (calls : List (Call V (Axis.Coordinate A))) (j : Nat) :
    (h.callAllCaught calls).valueAtIndex j =
      if callsIn h.axes j calls = [] then h.valueAtIndex j
      else some (filledWith (callsIn h.axes j calls) ((h.valueAtIndex j).getD RDefault.dflt)) := by
  induction calls generalizing h with
  | nil => simp [callAllCaught, callsIn]
  | cons c cs ih =>
    rw [callAllCaught_cons, ih, call_axes, call_get]
    have hcons : callsIn h.axes j (c :: cs) =
        if Axis.index h.axes c.coord = .ok (some j) then c :: callsIn h.axes j cs else callsIn h.axes j cs := by
      unfold callsIn; rw [List.filter_cons]; split <;> rename_i hc <;> simp at hc <;> simp [hc]
    rw [hcons]
    by_cases hc : Axis.index h.axes c.coord = .ok (some j)
    · simp only [hc, if_true, reduceCtorEq, if_false, Option.getD_some]
      split
      · rename_i e; rw [e]; rfl
      · rfl
    · simp only [hc, if_false]

theorem Ok.callAllCaught {h : HashHistogram A V} {n : Nat} (ok : h.Ok n) (calls : List (Call V (Axis.Coordinate A))) :
    (h.callAllCaught calls).Ok n := by
  induction calls generalizing h with
  | nil => exact ok
  | cons c cs ih => exact ih (ok.call c)

theorem callAll_panic {h : HashHistogram A V} {calls : List (Call V (Axis.Coordinate A))} {p : Panic}
    (hp : (h.callAll calls).2 = some p) :
    ∃ pre c post, calls = pre ++ c :: post ∧ (h.callAll pre).2 = none ∧
      ((h.callAll pre).1.call c).2 = some p ∧ (h.callAll calls).1 = h.callAllCaught (pre ++ [c]) := by
  induction calls generalizing h with
  | nil => simp [callAll] at hp
  | cons c cs ih =>
    rcases hc : h.call c with ⟨h', _ | q⟩
    · simp only [callAll, hc] at hp ⊢
      obtain ⟨pre, d, post, h1, h2, h3, h4⟩ := ih hp
      refine ⟨c :: pre, d, post, by simp [h1], by simp [callAll, hc, h2], by simp [callAll, hc, h3], ?_⟩
      rw [h4, List.cons_append, callAllCaught_cons, hc]
    · simp only [callAll, hc, Option.some.injEq] at hp ⊢
      subst hp
      exact ⟨[], c, cs, rfl, rfl, by simp [callAll, hc], by simp [callAllCaught, hc]⟩

theorem callAll_ok {h : HashHistogram A V} {calls : List (Call V (Axis.Coordinate A))}
    (hp : (h.callAll calls).2 = none) : (h.callAll calls).1 = h.callAllCaught calls := by
  induction calls generalizing h with
  | nil => rfl
  | cons c cs ih =>
    rcases hc : h.call c with ⟨h', _ | q⟩
    · simp only [callAll, hc] at hp ⊢
      rw [ih hp, callAllCaught_cons, hc]
    · simp [callAll, hc] at hp

end HashHistogram
end NdHist
