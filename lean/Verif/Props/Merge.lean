import Verif.Props.Value
import Verif.Model.Eq
import Mathlib.Data.ZMod.Basic
/-!
# Arithmetic on histograms: C33 - C36
-/
namespace NdHist

/-- The values' `op=` stores what `op` computes, unless it panics. (True of all primitive types; Rust does not enforce
it for user types.) -/
class LawfulROps (V : Type) [ROps V] : Prop where
  assign : ∀ (o : Op) (r l : V), ROps.opAssign o r l = match ROps.op o l r with
    | .ok x => (x, none)
    | .error p => (l, some p)

instance {T : Type} [Cfg] [RNum T] : LawfulROps T where
  assign o r l := by cases o <;> rfl

section
variable {A V : Type} [Cfg] [Axis A]

/-! ## lemmas -/

theorem zipRes_error {f : V → V → Res V} {l r : List V} {p : Panic} (h : zipRes f l r = .error p) :
    ∃ (j : Nat) (x y : V), l[j]? = some x ∧ r[j]? = some y ∧ f x y = .error p := by
  induction l generalizing r with
  | nil => simp [zipRes, pure, Except.pure] at h
  | cons v vs ih =>
    cases r with
    | nil => simp [zipRes, pure, Except.pure] at h
    | cons w ws =>
      rcases hf : f v w with q | x
      · simp only [zipRes, hf, bind, Except.bind, Except.error.injEq] at h
        exact ⟨0, v, w, rfl, rfl, by rw [hf, h]⟩
      · rcases hr : zipRes f vs ws with q | xs
        · simp only [zipRes, hf, hr, bind, Except.bind, Except.error.injEq] at h
          subst h
          obtain ⟨j, a, b, h1, h2, h3⟩ := ih hr
          exact ⟨j + 1, a, b, by simpa using h1, by simpa using h2, h3⟩
        · simp [zipRes, hf, hr, bind, Except.bind, pure, Except.pure] at h

theorem zipUpd_eq [ROps V] [LawfulROps V] (o : Op) {l r : List V} (hlen : l.length = r.length) :
    (∀ z, zipRes (ROps.op o) l r = .ok z → zipUpd (ROps.opAssign o) l r = (z, none)) ∧
    (∀ p, zipRes (ROps.op o) l r = .error p → (zipUpd (ROps.opAssign o) l r).2 = some p) := by
  induction l generalizing r with
  | nil =>
    cases r with
    | nil => simp [zipRes, zipUpd, pure, Except.pure]
    | cons w ws => simp at hlen
  | cons v vs ih =>
    cases r with
    | nil => simp at hlen
    | cons w ws =>
      obtain ⟨h1, h2⟩ := ih (r := ws) (by simpa using hlen)
      rcases hf : ROps.op o v w with q | x
      · simp [zipRes, zipUpd, hf, bind, Except.bind, LawfulROps.assign]
      · rcases hr : zipRes (ROps.op o) vs ws with q | xs
        · simp [zipRes, zipUpd, hf, hr, bind, Except.bind, LawfulROps.assign, h2 q hr]
        · simp [zipRes, zipUpd, hf, hr, bind, Except.bind, pure, Except.pure, LawfulROps.assign, h1 xs hr]

/-! ## C34 -/

/-- C34, dense: the operators that return a `Result` return an error exactly when the axes compare unequal (unless a
value operation panics); the assigning ones then panic and leave the left side as it was. -/
theorem C34_dense [PEq A] [ROps V] (o : Op) (l r : VecHistogram A V) :
    (l.opBorrow o r = .ok (.error .mk) ↔ PEq.peq l.axes r.axes = false) ∧
    (l.opOwned o r = .ok (.error .mk) ↔ PEq.peq l.axes r.axes = false) ∧
    (PEq.peq l.axes r.axes = false → l.opAssign o r = (l, some .incompatibleAxes)) ∧
    (PEq.peq l.axes r.axes = true → (∀ x y : V, (ROps.opAssign o y x).2 = none) → (l.opAssign o r).2 = none) := by
  refine ⟨?_, ?_, ?_, ?_⟩
  · cases h : PEq.peq l.axes r.axes
    · simp [VecHistogram.opBorrow, h, pure, Except.pure]
    · rcases hz : zipRes (ROps.op o) l.values r.values with q | z <;>
        simp [VecHistogram.opBorrow, h, hz, bind, Except.bind, pure, Except.pure]
  · cases h : PEq.peq l.axes r.axes
    · simp [VecHistogram.opOwned, h]
    · rcases hz : zipUpd (ROps.opAssign o) l.values r.values with ⟨z, _ | q⟩ <;>
        simp [VecHistogram.opOwned, h, hz]
  · intro h; simp [VecHistogram.opAssign, h]
  · intro h hall
    simp only [VecHistogram.opAssign, h, Bool.true_eq_false, if_false]
    generalize r.values = rv
    generalize l.values = lv
    induction lv generalizing rv with
    | nil => rfl
    | cons v vs ih =>
      cases rv with
      | nil => rfl
      | cons w ws =>
        rcases hf : ROps.opAssign o w v with ⟨x, _ | q⟩
        · simp only [zipUpd, hf]; exact ih ws
        · have := hall v w; rw [hf] at this; cases this

/-! ## C33, C35, C36: dense -/

/-- C33, dense: every operator acts bin by bin: if no value operation panics the result has the same axes and bins and bin `i`
holds `x op y`; a panic is the panic of the operation on some bin. -/
theorem C33_binwise_dense [PEq A] [ROps V] (o : Op) {l r : VecHistogram A V} {n : Nat} (hl : l.Ok n) (hr : r.Ok n)
    (hax : PEq.peq l.axes r.axes = true) :
    (∃ m, l.opBorrow o r = .ok (.ok m) ∧ m.Ok n ∧ m.axes = l.axes ∧
      ∀ i, i < n → ∃ x y z, l.valueAtIndex i = some x ∧ r.valueAtIndex i = some y ∧ ROps.op o x y = .ok z ∧
        m.valueAtIndex i = some z) ∨
    (∃ p i x y, l.opBorrow o r = .error p ∧ l.valueAtIndex i = some x ∧ r.valueAtIndex i = some y ∧
      ROps.op o x y = .error p) := by
  have hlen : l.values.length = r.values.length := by rw [hl.size, hr.size]
  rcases hz : zipRes (ROps.op o) l.values r.values with p | z
  · right
    obtain ⟨j, x, y, h1, h2, h3⟩ := zipRes_error hz
    exact ⟨p, j, x, y, by simp [VecHistogram.opBorrow, hax, hz, bind, Except.bind], h1, h2, h3⟩
  · left
    obtain ⟨h1, h2⟩ := zipRes_eq_ok hlen hz
    refine ⟨⟨l.axes, z⟩, by simp [VecHistogram.opBorrow, hax, hz, bind, Except.bind, pure, Except.pure],
      ⟨hl.lawful, by rw [h1, hl.size]⟩, rfl, ?_⟩
    intro i hi
    obtain ⟨x, hx⟩ := hl.get hi
    obtain ⟨y, hy⟩ := hr.get hi
    obtain ⟨w, h3, h4⟩ := h2 i x y hx hy
    exact ⟨x, y, w, hx, hy, h3, h4⟩

/-- C35, dense: the three forms of an operator agree: same result, same error, and if a value operation panics all
three panic with the same panic. -/
theorem C35_dense [PEq A] [ROps V] [LawfulROps V] (o : Op) {l r : VecHistogram A V} {n : Nat} (hl : l.Ok n) (hr : r.Ok n) :
    l.opOwned o r = l.opBorrow o r ∧
    (∀ m, l.opBorrow o r = .ok (.ok m) → l.opAssign o r = (m, none)) ∧
    (∀ p, l.opBorrow o r = .error p → (l.opAssign o r).2 = some p) := by
  have hlen : l.values.length = r.values.length := by rw [hl.size, hr.size]
  obtain ⟨h1, h2⟩ := zipUpd_eq o hlen
  cases h : PEq.peq l.axes r.axes
  · simp [VecHistogram.opOwned, VecHistogram.opBorrow, h, pure, Except.pure]
  · rcases hz : zipRes (ROps.op o) l.values r.values with q | z
    · simp [VecHistogram.opOwned, VecHistogram.opBorrow, VecHistogram.opAssign, h, hz, h2 q hz, bind, Except.bind]
    · simp [VecHistogram.opOwned, VecHistogram.opBorrow, VecHistogram.opAssign, h, hz, h1 z hz, bind, Except.bind,
        pure, Except.pure]

theorem mapM_res {α β : Type} (f : α → Res β) (l : List α) :
    (∃ z, l.mapM f = .ok z ∧ z.length = l.length ∧ ∀ (i : Nat) x, l[i]? = some x → ∃ y, f x = .ok y ∧ z[i]? = some y) ∨
    (∃ p x, l.mapM f = .error p ∧ x ∈ l ∧ f x = .error p) := by
  induction l with
  | nil => left; exact ⟨[], rfl, rfl, by simp⟩
  | cons a l ih =>
    rcases hf : f a with p | b
    · right; exact ⟨p, a, by rw [List.mapM_cons, hf]; rfl, List.mem_cons_self .., hf⟩
    · rcases ih with ⟨z, h1, h2, h3⟩ | ⟨p, x, h1, h2, h3⟩
      · left
        refine ⟨b :: z, by rw [List.mapM_cons, hf, h1]; rfl, by simp [h2], ?_⟩
        intro i x hx
        cases i with
        | zero => simp at hx; subst hx; exact ⟨b, hf, rfl⟩
        | succ i => simpa using h3 i x (by simpa using hx)
      · right
        exact ⟨p, x, by rw [List.mapM_cons, hf, h1]; rfl, List.mem_cons_of_mem _ h2, h3⟩

/-- C36: an operation with a scalar keeps the axes and bins and applies `op` with the scalar to every bin; a panic is the panic of the
operation on some bin. -/
theorem C36_scalar [ROps V] (o : Op) {h : VecHistogram A V} {n : Nat} (ok : h.Ok n) (x : V) :
    (∃ m, h.opScalar o x = .ok m ∧ m.Ok n ∧ m.axes = h.axes ∧
      ∀ i v, h.valueAtIndex i = some v → ∃ z, ROps.op o v x = .ok z ∧ m.valueAtIndex i = some z) ∨
    (∃ p i v, h.opScalar o x = .error p ∧ h.valueAtIndex i = some v ∧ ROps.op o v x = .error p) := by
  rcases mapM_res (fun v => ROps.op o v x) h.values with ⟨z, h1, h2, h3⟩ | ⟨p, v, h1, h2, h3⟩
  · left
    refine ⟨⟨h.axes, z⟩, by simp [VecHistogram.opScalar, h1, bind, Except.bind, pure, Except.pure],
      ⟨ok.lawful, by rw [h2, ok.size]⟩, rfl, fun i v hv => h3 i v hv⟩
  · right
    obtain ⟨i, hi⟩ := List.mem_iff_getElem?.1 h2
    exact ⟨p, i, v, by simp [VecHistogram.opScalar, h1, bind, Except.bind], hi, h3⟩

/-! ## sparse -/

namespace HashHistogram

/-- C34, sparse -/
theorem _root_.NdHist.C34_sparse [PEq A] [ROps V] [RDefault V] (o : Op) (l r : HashHistogram A V) (ko : KeyOrder l r)
    (ro : r.values.Order) :
    (l.opBorrow o r ko = .ok (.error .mk) ↔ PEq.peq l.axes r.axes = false) ∧
    (l.opOwned o r ro = .ok (.error .mk) ↔ PEq.peq l.axes r.axes = false) ∧
    (PEq.peq l.axes r.axes = false → l.opAssign o r ro = (l, some .incompatibleAxes)) ∧
    (PEq.peq l.axes r.axes = true → (∀ x y : V, (ROps.opAssign o y x).2 = none) → (l.opAssign o r ro).2 = none) := by
  refine ⟨?_, ?_, ?_, ?_⟩
  · cases h : PEq.peq l.axes r.axes
    · simp [opBorrow, h, pure, Except.pure]
    · simp only [opBorrow, h, Bool.true_eq_false, if_false, iff_false]
      intro hh
      rw [Res.bind_eq_ok] at hh
      obtain ⟨_, _, hh⟩ := hh
      simp [pure, Except.pure] at hh
  · cases h : PEq.peq l.axes r.axes
    · simp [opOwned, h]
    · rcases hz : mergeLoop o ro.list l.values with ⟨z, _ | q⟩ <;> simp [opOwned, h, hz]
  · intro h; simp [opAssign, h]
  · intro h hall
    simp only [opAssign, h, Bool.true_eq_false, if_false]
    generalize ro.list = rl
    generalize l.values = lv
    induction rl generalizing lv with
    | nil => rfl
    | cons kv rest ih =>
      obtain ⟨k, y⟩ := kv
      rcases hf : entryUpd lv k (ROps.opAssign o y) with ⟨x, _ | q⟩
      · simp only [mergeLoop, hf]; exact ih x
      · have := hall ((lv.get k).getD RDefault.dflt) y
        have h2 : (entryUpd lv k (ROps.opAssign o y)).2 = none := this
        rw [hf] at h2; cases h2

/-- the value the merged histogram has for a bin -/
def merged [ROps V] [RDefault V] (o : Op) (x y : Option V) : Res (Option V) :=
  match x, y with
  | none, none => .ok none
  | x, y => (ROps.op o (x.getD RDefault.dflt) (y.getD RDefault.dflt)).map some

theorem mapM_pairs {g : Nat → Res (Nat × V)} (hg : ∀ k kv, g k = .ok kv → kv.1 = k) {l : List Nat} {z : List (Nat × V)}
    (h : l.mapM g = .ok z) : z.map (·.1) = l ∧ ∀ kv ∈ z, g kv.1 = .ok kv := by
  induction l generalizing z with
  | nil =>
    have : z = [] := by simpa [pure, Except.pure] using h.symm
    subst this; simp
  | cons k l ih =>
    rw [List.mapM_cons, Res.bind_eq_ok] at h
    obtain ⟨kv, h1, h⟩ := h
    rw [Res.bind_eq_ok] at h
    obtain ⟨zs, h3, h4⟩ := h
    simp only [pure, Except.pure, Except.ok.injEq] at h4
    subst h4
    obtain ⟨h5, h6⟩ := ih h3
    have hk := hg k kv h1
    refine ⟨by simp [h5, hk], ?_⟩
    intro kv hm
    rcases List.mem_cons.1 hm with rfl | hm
    · rw [hk]; exact h1
    · exact h6 kv hm

/-- C33, sparse: `&h1 op &h2` holds, for the bins filled in either operand and no others, the operator applied to the two
values, with the default in place of a missing one; independent of the order in which the set of keys is iterated. -/
theorem _root_.NdHist.C33_binwise_sparse [PEq A] [ROps V] [RDefault V] (o : Op) {l r m : HashHistogram A V} {n : Nat}
    (hl : l.Ok n) (hr : r.Ok n) (ko : KeyOrder l r) (h : l.opBorrow o r ko = .ok (.ok m)) :
    m.Ok n ∧ m.axes = l.axes ∧ ∀ i, merged o (l.valueAtIndex i) (r.valueAtIndex i) = .ok (m.valueAtIndex i) := by
  have hax : PEq.peq l.axes r.axes = true := by
    cases h' : PEq.peq l.axes r.axes with
    | true => rfl
    | false => simp [opBorrow, h', pure, Except.pure] at h
  simp only [opBorrow, hax, Bool.true_eq_false, if_false] at h
  rw [Res.bind_eq_ok] at h
  obtain ⟨z, hz, hm⟩ := h
  simp only [pure, Except.pure, Except.ok.injEq] at hm
  subst hm
  obtain ⟨h1, h2⟩ := mapM_pairs (by
    intro k kv hk
    split at hk <;> rw [Res.bind_eq_ok] at hk <;> obtain ⟨_, _, hk⟩ := hk <;>
      simp only [pure, Except.pure, Except.ok.injEq] at hk <;> subst hk <;> rfl) hz
  have hnd : (z.map (·.1)).Nodup := by rw [h1]; exact ko.nodup
  have hget : ∀ i, (HMap.collect z).get i = HMap.find i z := fun i => HMap.get_collect z hnd i
  refine ⟨⟨hl.lawful, HMap.nodup_collect _, ?_⟩, rfl, ?_⟩
  · intro i hi
    rw [← HMap.get_isSome] at hi
    obtain ⟨v, hv⟩ := hi
    rw [hget] at hv
    have : i ∈ z.map (·.1) := List.mem_map.2 ⟨_, HMap.find_mem hv, rfl⟩
    rw [h1, ko.mem_iff] at this
    rcases this with h | h
    · exact hl.valid _ h
    · exact hr.valid _ h
  · intro i
    change merged o (l.values.get i) (r.values.get i) = .ok ((HMap.collect z).get i)
    rw [hget]
    by_cases hi : i ∈ ko.list
    · rw [← h1, ← HMap.find_isSome] at hi
      obtain ⟨v, hv⟩ := hi
      have h3 := h2 _ (HMap.find_mem hv)
      rw [hv]
      simp only at h3
      cases hx : l.values.get i <;> cases hy : r.values.get i <;> rw [hx, hy] at h3 <;>
        simp only [Res.bind_eq_ok, pure, Except.pure, Except.ok.injEq, Prod.mk.injEq, true_and, throw, throwThe,
          MonadExceptOf.throw, reduceCtorEq, false_and, exists_false, exists_eq_right] at h3 <;>
        simp [merged, Except.map, h3]
    · have : HMap.find i z = none := by
        cases hf : HMap.find i z with
        | none => rfl
        | some v =>
          exfalso; apply hi
          rw [← h1]; exact List.mem_map.2 ⟨_, HMap.find_mem hf, rfl⟩
      rw [this]
      rw [ko.mem_iff] at hi
      have h3 : l.values.get i = none := (HMap.get_eq_none _ _).2 fun h => hi (Or.inl h)
      have h4 : r.values.get i = none := (HMap.get_eq_none _ _).2 fun h => hi (Or.inr h)
      rw [h3, h4]; rfl

theorem mergeLoop_ok [ROps V] [LawfulROps V] [RDefault V] (o : Op) (rl : List (Nat × V)) (hnd : (rl.map (·.1)).Nodup)
    (lv : HMap Nat V) (h : (mergeLoop o rl lv).2 = none) (i : Nat) :
    match HMap.find i rl with
    | none => (mergeLoop o rl lv).1.get i = lv.get i
    | some y => ∃ z, ROps.op o ((lv.get i).getD RDefault.dflt) y = .ok z ∧ (mergeLoop o rl lv).1.get i = some z := by
  induction rl generalizing lv with
  | nil => rfl
  | cons kv rest ih =>
    obtain ⟨k, y⟩ := kv
    have hnd' : (rest.map (·.1)).Nodup := (List.nodup_cons.1 hnd).2
    have hk : k ∉ rest.map (·.1) := (List.nodup_cons.1 hnd).1
    rcases hop : ROps.op o ((lv.get k).getD RDefault.dflt) y with q | z
    · exfalso
      have : entryUpd lv k (ROps.opAssign o y) = (lv.insert k ((lv.get k).getD RDefault.dflt), some q) := by
        simp [entryUpd, LawfulROps.assign, hop]
      simp [mergeLoop, this] at h
    · have he : entryUpd lv k (ROps.opAssign o y) = (lv.insert k z, none) := by
        simp [entryUpd, LawfulROps.assign, hop]
      simp only [mergeLoop, he] at h ⊢
      have := ih hnd' (lv.insert k z) h
      simp only [HMap.find]
      by_cases hki : k = i
      · subst hki
        have hf : HMap.find k rest = none := by
          cases hf : HMap.find k rest with
          | none => rfl
          | some v => exact absurd (List.mem_map.2 ⟨_, HMap.find_mem hf, rfl⟩) hk
        rw [hf] at this
        simp only [if_true]
        simp only [HMap.get_insert_self] at this
        exact ⟨z, hop, this⟩
      · simp only [hki, if_false]
        rw [HMap.get_insert_ne _ _ hki] at this
        exact this

theorem mergeLoop_keys [ROps V] [RDefault V] (o : Op) (rl : List (Nat × V)) (lv : HMap Nat V) (hn : lv.NodupKeys) :
    (mergeLoop o rl lv).1.NodupKeys ∧
      ∀ i, i ∈ (mergeLoop o rl lv).1.keys → i ∈ lv.keys ∨ i ∈ rl.map (·.1) := by
  induction rl generalizing lv with
  | nil => exact ⟨hn, fun i hi => Or.inl hi⟩
  | cons kv rest ih =>
    obtain ⟨k, y⟩ := kv
    have hne : (entryUpd lv k (ROps.opAssign o y)).1.NodupKeys := HMap.nodup_insert hn _ _
    have hke : ∀ i, i ∈ (entryUpd lv k (ROps.opAssign o y)).1.keys → i = k ∨ i ∈ lv.keys :=
      fun i hi => (HMap.mem_keys_insert _ _ _ _).1 hi
    rcases hf : entryUpd lv k (ROps.opAssign o y) with ⟨x, _ | q⟩
    · rw [hf] at hne hke
      simp only [mergeLoop, hf]
      obtain ⟨h1, h2⟩ := ih x hne
      refine ⟨h1, fun i hi => ?_⟩
      rcases h2 i hi with h | h
      · rcases hke i h with rfl | h
        · right; simp
        · left; exact h
      · right; simp only [List.map_cons, List.mem_cons]; right; exact h
    · rw [hf] at hne hke
      simp only [mergeLoop, hf]
      refine ⟨hne, fun i hi => ?_⟩
      rcases hke i hi with rfl | h
      · right; simp
      · left; exact h

/-- C33, sparse: `h1 op= &h2` (and `h1 op &h2`, C35) holds, for the bins filled in the right operand, the operator applied to the two
values, with the default for a missing left one; all other bins are as in the left operand. The iteration order is
irrelevant. -/
theorem _root_.NdHist.C33_assign_sparse [PEq A] [ROps V] [LawfulROps V] [RDefault V] (o : Op) {l r m : HashHistogram A V} {n : Nat}
    (hl : l.Ok n) (hr : r.Ok n) (ro : r.values.Order) (h : l.opAssign o r ro = (m, none)) :
    m.Ok n ∧ m.axes = l.axes ∧
    (∀ i, r.valueAtIndex i = none → m.valueAtIndex i = l.valueAtIndex i) ∧
    (∀ i y, r.valueAtIndex i = some y → ∃ z, ROps.op o ((l.valueAtIndex i).getD RDefault.dflt) y = .ok z ∧
      m.valueAtIndex i = some z) := by
  have hax : PEq.peq l.axes r.axes = true := by
    cases h' : PEq.peq l.axes r.axes with
    | true => rfl
    | false => simp [opAssign, h'] at h
  simp only [opAssign, hax, Bool.true_eq_false, if_false, Prod.mk.injEq] at h
  obtain ⟨rfl, h2⟩ := h
  have hnd : (ro.list.map (·.1)).Nodup := ((ro.perm.map _).nodup_iff).2 hr.nodup
  have key := mergeLoop_ok o ro.list hnd l.values h2
  have hfind : ∀ i, HMap.find i ro.list = r.values.get i := fun i => HMap.find_perm ro.perm hnd i
  obtain ⟨k1, k2⟩ := mergeLoop_keys o ro.list l.values hl.nodup
  refine ⟨⟨hl.lawful, k1, ?_⟩, rfl, ?_, ?_⟩
  · intro i hi
    rcases k2 i hi with h | h
    · exact hl.valid i h
    · exact hr.valid i (((ro.perm.map (·.1)).mem_iff).1 h)
  · intro i hi
    have := key i
    rw [hfind, show r.values.get i = none from hi] at this
    exact this
  · intro i y hy
    have := key i
    rw [hfind, show r.values.get i = some y from hy] at this
    exact this

/-- C35, sparse: the owned form gives exactly what the assigning form leaves. -/
theorem _root_.NdHist.C35_sparse_owned_assign [PEq A] [ROps V] [RDefault V] (o : Op) {l r : HashHistogram A V} (ro : r.values.Order)
    (m : HashHistogram A V) (hax : PEq.peq l.axes r.axes = true) :
    (l.opOwned o r ro = .ok (.ok m) ↔ l.opAssign o r ro = (m, none)) ∧
    (∀ p, l.opOwned o r ro = .error p ↔ (l.opAssign o r ro).2 = some p) := by
  rcases hz : mergeLoop o ro.list l.values with ⟨z, _ | q⟩ <;>
    simp [opOwned, opAssign, hax, hz]

/-- C35, sparse, partial: the borrowing form and the assigning form give the same value in every bin, provided the operator with a
default right operand does nothing (`x op 0 = x`: true of `+` and `-` on integers and exact numbers, not of `*` and `/`). -/
theorem _root_.NdHist.C35_sparse_neutral [PEq A] [ROps V] [LawfulROps V] [RDefault V] (o : Op)
    (hneutral : ∀ x : V, ROps.op o x RDefault.dflt = .ok x)
    {l r m m' : HashHistogram A V} {n : Nat} (hl : l.Ok n) (hr : r.Ok n) (ko : KeyOrder l r) (ro : r.values.Order)
    (h : l.opBorrow o r ko = .ok (.ok m)) (h' : l.opAssign o r ro = (m', none)) :
    m'.axes = m.axes ∧ ∀ i, m'.valueAtIndex i = m.valueAtIndex i := by
  obtain ⟨-, a1, a2⟩ := C33_binwise_sparse o hl hr ko h
  obtain ⟨-, b1, b2, b3⟩ := C33_assign_sparse o hl hr ro h'
  refine ⟨by rw [a1, b1], fun i => ?_⟩
  have := a2 i
  cases hy : r.valueAtIndex i with
  | none =>
    rw [b2 i hy]
    rw [hy] at this
    cases hx : l.valueAtIndex i with
    | none => rw [hx] at this; simpa [merged] using this
    | some x => rw [hx] at this; simpa [merged, Except.map, hneutral] using this
  | some y =>
    obtain ⟨z, h1, h2⟩ := b3 i y hy
    rw [h2]
    rw [hy] at this
    cases hx : l.valueAtIndex i with
    | none => rw [hx] at this h1; simp only [Option.getD_none] at h1; simpa [merged, Except.map, h1] using this
    | some x => rw [hx] at this h1; simp only [Option.getD_some] at h1; simpa [merged, Except.map, h1] using this

end HashHistogram
end
end NdHist
