import Verif.SpecHasher
import Verif.Props.Reduce
import Verif.Props.ProgNum
/-!
# C81: nothing a program computes with sparse histograms depends on the hasher
-/
namespace NdHist

/-! ## Loops over distinct keys -/
section
variable {K V : Type} [DecidableEq K]

/-- a loop that changes one entry in each round -/
def keyLoop : List (K × (Option V → V × Option Panic)) → HMap K V → HMap K V × Option Panic
  | [], m => (m, none)
  | (k, g) :: rest, m =>
    match g (m.get k) with
    | (v, some p) => (m.insert k v, some p)
    | (v, none) => keyLoop rest (m.insert k v)

theorem keyLoop_none (l : List (K × (Option V → V × Option Panic))) (hn : (l.map (·.1)).Nodup) (m : HMap K V) :
    (keyLoop l m).2 = none ↔ ∀ kg ∈ l, (kg.2 (m.get kg.1)).2 = none := by
  induction l generalizing m with
  | nil => simp [keyLoop]
  | cons kg l ih =>
    obtain ⟨k, g⟩ := kg
    simp only [List.map_cons, List.nodup_cons] at hn
    rw [keyLoop]
    rcases hg : g (m.get k) with ⟨v, _ | p⟩
    · simp only [List.mem_cons, forall_eq_or_imp, hg, true_and]
      rw [ih hn.2]
      refine forall_congr' fun kg => forall_congr' fun hkg => ?_
      have : k ≠ kg.1 := fun h => hn.1 (List.mem_map.2 ⟨kg, hkg, h.symm⟩)
      rw [HMap.get_insert_ne _ _ this]
    · simp [hg]

theorem keyLoop_nodup (l : List (K × (Option V → V × Option Panic))) {m : HMap K V} (hm : m.NodupKeys) : (keyLoop l m).1.NodupKeys := by
  induction l generalizing m with
  | nil => exact hm
  | cons kg l ih =>
    obtain ⟨k, g⟩ := kg
    rw [keyLoop]
    rcases hg : g (m.get k) with ⟨v, _ | p⟩
    · exact ih (HMap.nodup_insert hm _ _)
    · exact HMap.nodup_insert hm _ _

theorem keyLoop_get_not (l : List (K × (Option V → V × Option Panic))) (m : HMap K V) {j : K} (hj : j ∉ l.map (·.1)) :
    (keyLoop l m).1.get j = m.get j := by
  induction l generalizing m with
  | nil => rfl
  | cons kg l ih =>
    obtain ⟨k, g⟩ := kg
    simp only [List.map_cons, List.mem_cons, not_or] at hj
    rw [keyLoop]
    rcases hg : g (m.get k) with ⟨v, _ | p⟩
    · simp only
      rw [ih _ hj.2, HMap.get_insert_ne _ _ (Ne.symm hj.1)]
    · simp only
      rw [HMap.get_insert_ne _ _ (Ne.symm hj.1)]

theorem keyLoop_get_mem (l : List (K × (Option V → V × Option Panic))) (hn : (l.map (·.1)).Nodup) (m : HMap K V) (hok : (keyLoop l m).2 = none)
    {j : K} {g : Option V → V × Option Panic} (hj : (j, g) ∈ l) : (keyLoop l m).1.get j = some (g (m.get j)).1 := by
  induction l generalizing m with
  | nil => cases hj
  | cons kg l ih =>
    obtain ⟨k, g'⟩ := kg
    simp only [List.map_cons, List.nodup_cons] at hn
    rw [keyLoop] at hok ⊢
    rcases hg : g' (m.get k) with ⟨v, _ | p⟩
    · rw [hg] at hok
      simp only at hok ⊢
      rcases List.mem_cons.1 hj with h | h
      · cases h
        rw [keyLoop_get_not _ _ hn.1, HMap.get_insert_self, hg]
      · have : k ≠ j := fun e => hn.1 (List.mem_map.2 ⟨(j, g), h, e.symm⟩)
        rw [ih hn.2 _ hok h, HMap.get_insert_ne _ _ this]
    · rw [hg] at hok
      cases hok

/-- two maps that hold the same -/
def SameMap (m m' : HMap K V) : Prop := m.NodupKeys ∧ m'.NodupKeys ∧ ∀ k, m.get k = m'.get k

theorem SameMap.insert {m m' : HMap K V} (h : SameMap m m') (k : K) (v : V) : SameMap (m.insert k v) (m'.insert k v) :=
  ⟨HMap.nodup_insert h.1 _ _, HMap.nodup_insert h.2.1 _ _, fun j => by rw [HMap.get_insert, HMap.get_insert, h.2.2]⟩

theorem SameMap.perm {m m' : HMap K V} (h : SameMap m m') : m.entries.Perm m'.entries := HMap.perm_of_get_eq h.1 h.2.1 h.2.2

theorem SameMap.orders {m m' : HMap K V} (h : SameMap m m') (o : m.Order) (o' : m'.Order) : o.list.Perm o'.list :=
  (o.perm.trans h.perm).trans o'.perm.symm

theorem keyLoop_same {l l' : List (K × (Option V → V × Option Panic))} (hp : l.Perm l') (hn : (l.map (·.1)).Nodup) {m m' : HMap K V}
    (h : SameMap m m') :
    ((keyLoop l m).2 = none ↔ (keyLoop l' m').2 = none) ∧
    ((keyLoop l m).2 = none → SameMap (keyLoop l m).1 (keyLoop l' m').1) := by
  have hn' : (l'.map (·.1)).Nodup := ((hp.map _).nodup_iff).1 hn
  have e : (keyLoop l m).2 = none ↔ (keyLoop l' m').2 = none := by
    rw [keyLoop_none _ hn, keyLoop_none _ hn']
    exact ⟨fun h' kg hk => by rw [← h.2.2]; exact h' kg (hp.mem_iff.2 hk), fun h' kg hk => by rw [h.2.2]; exact h' kg (hp.mem_iff.1 hk)⟩
  refine ⟨e, fun hok => ⟨keyLoop_nodup _ h.1, keyLoop_nodup _ h.2.1, fun j => ?_⟩⟩
  by_cases hj : j ∈ l.map (·.1)
  · obtain ⟨⟨k, g⟩, hk, rfl⟩ := List.mem_map.1 hj
    rw [keyLoop_get_mem _ hn _ hok hk, keyLoop_get_mem _ hn' _ (e.1 hok) (hp.mem_iff.1 hk), h.2.2]
  · rw [keyLoop_get_not _ _ hj, keyLoop_get_not _ _ (fun hc => hj (((hp.map _).mem_iff).2 hc)), h.2.2]
end

section
variable {A V : Type} [Cfg] [Axis A]

theorem SameHist.map {h h' : HashHistogram A V} (s : SameHist h h') : SameMap h.values h'.values := ⟨s.nodup, s.nodup', s.value⟩

theorem SameMap.hist {h h' : HashHistogram A V} (ha : h.axes = h'.axes) (s : SameMap h.values h'.values) : SameHist h h' := ⟨ha, s.1, s.2.1, s.2.2⟩

theorem SameHist.refl {h : HashHistogram A V} (hn : h.values.NodupKeys) : SameHist h h := ⟨rfl, hn, hn, fun _ => rfl⟩

theorem updKeys_keyLoop (f : Nat → Upd V) (l : List (Nat × V)) (hn : (l.map (·.1)).Nodup) (m : HMap Nat V) (hl : ∀ kv ∈ l, m.get kv.1 = some kv.2) :
    HashHistogram.updKeys f (l.map (·.1)) m = keyLoop (l.map fun kv => (kv.1, fun _ => f kv.1 kv.2)) m := by
  induction l generalizing m with
  | nil => rfl
  | cons kv l ih =>
    obtain ⟨k, v⟩ := kv
    simp only [List.map_cons, List.nodup_cons] at hn
    simp only [List.map_cons, HashHistogram.updKeys, keyLoop, hl (k, v) (List.mem_cons_self ..)]
    rcases f k v with ⟨v', _ | p⟩
    · simp only
      refine ih hn.2 _ fun kv hkv => ?_
      have : k ≠ kv.1 := fun e => hn.1 (List.mem_map.2 ⟨kv, hkv, e.symm⟩)
      rw [HMap.get_insert_ne _ _ this]
      exact hl _ (List.mem_cons_of_mem _ hkv)
    · rfl

theorem order_nodup {m : HMap Nat V} (hn : m.NodupKeys) (o : m.Order) : (o.list.map (·.1)).Nodup := ((o.perm.map _).nodup_iff).2 hn

theorem SameMap.updKeys {m m' : HMap Nat V} (h : SameMap m m') (f : Nat → Upd V) (o : m.Order) (o' : m'.Order) :
    ((HashHistogram.updKeys f (o.list.map (·.1)) m).2 = none ↔ (HashHistogram.updKeys f (o'.list.map (·.1)) m').2 = none) ∧
    ((HashHistogram.updKeys f (o.list.map (·.1)) m).2 = none →
      SameMap (HashHistogram.updKeys f (o.list.map (·.1)) m).1 (HashHistogram.updKeys f (o'.list.map (·.1)) m').1) := by
  have e : ∀ {m : HMap Nat V} (_ : m.NodupKeys) (o : m.Order), ∀ kv ∈ o.list, m.get kv.1 = some kv.2 := fun hm o kv hkv =>
    (HMap.mem_entries_iff hm _ _).1 (o.perm.mem_iff.1 hkv)
  rw [updKeys_keyLoop f _ (order_nodup h.1 o) _ (e h.1 o), updKeys_keyLoop f _ (order_nodup h.2.1 o') _ (e h.2.1 o')]
  refine keyLoop_same ((h.orders o o').map _) ?_ h
  rw [List.map_map]
  exact order_nodup h.1 o

variable [ROps V] [RDefault V]

theorem mergeLoop_keyLoop (o : Op) (l : List (Nat × V)) (m : HMap Nat V) :
    HashHistogram.mergeLoop o l m = keyLoop (l.map fun kv => (kv.1, fun v => ROps.opAssign o kv.2 (v.getD RDefault.dflt))) m := by
  induction l generalizing m with
  | nil => rfl
  | cons kv l ih =>
    obtain ⟨k, v⟩ := kv
    simp only [List.map_cons, HashHistogram.mergeLoop, keyLoop, HashHistogram.entryUpd]
    rcases ROps.opAssign o v ((m.get k).getD RDefault.dflt) with ⟨v', _ | p⟩
    · simp only; exact ih _
    · rfl

theorem SameMap.mergeLoop {l l' r r' : HMap Nat V} (h : SameMap l l') (hr : SameMap r r') (o : Op) (w : r.Order) (w' : r'.Order) :
    ((HashHistogram.mergeLoop o w.list l).2 = none ↔ (HashHistogram.mergeLoop o w'.list l').2 = none) ∧
    ((HashHistogram.mergeLoop o w.list l).2 = none →
      SameMap (HashHistogram.mergeLoop o w.list l).1 (HashHistogram.mergeLoop o w'.list l').1) := by
  rw [mergeLoop_keyLoop, mergeLoop_keyLoop]
  refine keyLoop_same ((hr.orders w w').map _) ?_ h
  rw [List.map_map]
  exact order_nodup hr.1 w

/-! ## The statements -/

theorem SameHist.call {h h' : HashHistogram A V} (s : SameHist h h') (c : Call V (Axis.Coordinate A)) :
    (h.call c).2 = (h'.call c).2 ∧ SameHist (h.call c).1 (h'.call c).1 := by
  rw [h.call_eq, h'.call_eq, ← s.axes]
  rcases Axis.index h.axes c.coord with p | _ | i
  · exact ⟨rfl, s⟩
  · exact ⟨rfl, s⟩
  · simp only [HashHistogram.entryUpd]
    have : h.values.get i = h'.values.get i := s.value i
    rw [this]
    exact ⟨rfl, SameMap.hist rfl (s.map.insert _ _)⟩

omit [ROps V] [RDefault V] in
theorem SameHist.value_coord {h h' : HashHistogram A V} (s : SameHist h h') (c : Axis.Coordinate A) : h.value c = h'.value c := by
  simp only [HashHistogram.value, s.axes, s.value]

omit [ROps V] [RDefault V] in
theorem SameHist.valueAtIndexMut {h h' : HashHistogram A V} (s : SameHist h h') (i : Nat) (f : Upd V) :
    match h.valueAtIndexMut i f, h'.valueAtIndexMut i f with
    | none, none => True
    | some r, some r' => r.2 = r'.2 ∧ SameHist r.1 r'.1
    | _, _ => False := by
  have e : h.values.get i = h'.values.get i := s.value i
  simp only [HashHistogram.valueAtIndexMut, ← e]
  rcases h.values.get i with _ | v
  · trivial
  · exact ⟨rfl, SameMap.hist (by exact s.axes) (s.map.insert _ _)⟩

omit [ROps V] [RDefault V] in
theorem SameHist.iterMut {h h' : HashHistogram A V} (s : SameHist h h') (f : Nat → Axis.Interval A → Upd V) (o : h.values.Order) (o' : h'.values.Order) :
    ((h.iterMut o f).2 = none ↔ (h'.iterMut o' f).2 = none) ∧ ((h.iterMut o f).2 = none → SameHist (h.iterMut o f).1 (h'.iterMut o' f).1) := by
  simp only [HashHistogram.iterMut, ← s.axes]
  have := s.map.updKeys (fun i v => match Axis.bin h.axes i with | .error p => (v, some p) | .ok none => (v, some .expectNone) | .ok (some b) => f i b v) o o'
  exact ⟨this.1, fun hn => SameMap.hist rfl (this.2 hn)⟩

omit [ROps V] [RDefault V] in
theorem SameHist.valuesMut {h h' : HashHistogram A V} (s : SameHist h h') (f : Upd V) (o : h.values.Order) (o' : h'.values.Order) :
    ((h.valuesMut o f).2 = none ↔ (h'.valuesMut o' f).2 = none) ∧ ((h.valuesMut o f).2 = none → SameHist (h.valuesMut o f).1 (h'.valuesMut o' f).1) := by
  have := s.map.updKeys (fun _ => f) o o'
  exact ⟨this.1, fun hn => SameMap.hist (by exact s.axes) (this.2 hn)⟩

omit [ROps V] [RDefault V] in
theorem SameHist.items {h h' : HashHistogram A V} (s : SameHist h h') (o : h.values.Order) (o' : h'.values.Order) :
    match h.iter o, h'.iter o' with
    | .ok l, .ok l' => l.insertionSort (fun a b => a.index ≤ b.index) = l'.insertionSort (fun a b => a.index ≤ b.index)
    | .error _, .error _ => True
    | _, _ => False := by
  have hp := s.map.orders o o'
  simp only [HashHistogram.iter, ← s.axes]
  generalize hf : (fun (x : Nat × V) => (do
      let b ← Axis.bin h.axes x.1
      let bin ← expect b
      return { index := x.1, bin, value := x.2 } : Res (Item (Axis.Interval A) V))) = f
  have hfi : ∀ x y, f x = .ok y → y.index = x.1 := by
    intro x y hy
    subst hf
    simp only [bind, Except.bind, pure, Except.pure] at hy
    rcases hb : Axis.bin h.axes x.1 with p | _ | b <;> rw [hb] at hy <;> simp [expect] at hy
    rw [← hy]
  rcases hl : o.list.mapM f with p | l
  · rcases hr : o'.list.mapM f with q | l'
    · trivial
    · obtain ⟨zs, hz, -⟩ := mapM_perm hp.symm hr
      rw [hl] at hz; cases hz
  · obtain ⟨l', hr, hpl⟩ := mapM_perm hp hl
    rw [hr]
    simp only
    have hidx : l.map (·.index) = o.list.map (·.1) := by
      clear hr hpl hp
      generalize o.list = ol at hl
      induction ol generalizing l with
      | nil => simp only [List.mapM_nil, pure, Except.pure, Except.ok.injEq] at hl; subst hl; rfl
      | cons x xs ih =>
        rw [List.mapM_cons] at hl
        rcases hx : f x with p | y
        · rw [hx] at hl; cases hl
        · rcases hxs : xs.mapM f with p | ys
          · rw [hx, hxs] at hl; cases hl
          · rw [hx, hxs] at hl
            simp only [bind, Except.bind, pure, Except.pure, Except.ok.injEq] at hl
            subst hl
            rw [List.map_cons, List.map_cons, ih ys hxs, hfi x y hx]
    have hnd : (l.map (·.index)).Nodup := by rw [hidx]; exact order_nodup s.nodup o
    let le : Item (Axis.Interval A) V → Item (Axis.Interval A) V → Prop := fun a b => a.index ≤ b.index
    haveI : Std.Total le := ⟨fun a b => Nat.le_total ..⟩
    haveI : IsTrans _ le := ⟨fun a b c => Nat.le_trans⟩
    refine ((List.perm_insertionSort le l).trans (hpl.trans (List.perm_insertionSort le l').symm)).eq_of_pairwise (le := le) ?_
      (List.pairwise_insertionSort le l) (List.pairwise_insertionSort le l')
    intro a b ha hb h1 h2
    simp only [le] at h1 h2
    have ha' : a ∈ l := (List.perm_insertionSort le l).mem_iff.1 ha
    have hb' : b ∈ l := hpl.mem_iff.2 ((List.perm_insertionSort le l').mem_iff.1 hb)
    exact List.inj_on_of_nodup_map hnd ha' hb' (by omega)

omit [ROps V] [RDefault V] in
theorem SameHist.fold {h h' : HashHistogram A V} (s : SameHist h h') (o : h.values.Order) (o' : h'.values.Order) {β : Type} (b : β) (f : β → V → β)
    (comm : ∀ b v w, f (f b v) w = f (f b w) v) : (h.valuesIter o).foldl f b = (h'.valuesIter o').foldl f b := by
  have : RightCommutative f := ⟨comm⟩
  exact ((s.map.orders o o').map _).foldl_eq b

omit [ROps V] [RDefault V] in
theorem SameHist.beq [PEq A] [PEq V] {h h' k k' : HashHistogram A V} (s : SameHist h h') (t : SameHist k k') : h.beq k = h'.beq k' := by
  have hl : h.values.len = h'.values.len := s.map.perm.length_eq
  have kl : k.values.len = k'.values.len := t.map.perm.length_eq
  have ht : k.values.get = k'.values.get := funext t.value
  simp only [HashHistogram.beq, HMap.beq, s.axes, t.axes, hl, kl, ht]
  rw [s.map.perm.all_eq]

variable [PEq A]

theorem SameHist.opBorrow {h h' k k' : HashHistogram A V} (s : SameHist h h') (t : SameHist k k') (o : Op) (w : HashHistogram.KeyOrder h k)
    (w' : HashHistogram.KeyOrder h' k') :
    match h.opBorrow o k w, h'.opBorrow o k' w' with
    | .error _, .error _ => True
    | .ok (.error _), .ok (.error _) => True
    | .ok (.ok m), .ok (.ok m') => SameHist m m'
    | _, _ => False := by
  have hs : h.values.get = h'.values.get := funext s.value
  have ht : k.values.get = k'.values.get := funext t.value
  simp only [HashHistogram.opBorrow, s.axes, t.axes, hs, ht]
  by_cases hax : PEq.peq h'.axes k'.axes = false
  · simp [hax, pure, Except.pure]
  · simp only [hax, Bool.false_eq_true, if_false]
    have hp : w.list.Perm w'.list := by
      rw [List.perm_ext_iff_of_nodup w.nodup w'.nodup]
      intro i
      rw [w.mem_iff, w'.mem_iff, ← HMap.get_isSome, ← HMap.get_isSome, ← HMap.get_isSome, ← HMap.get_isSome, hs, ht]
    generalize hf : (fun index => (do
      let newvalue ←
        match h'.values.get index, k'.values.get index with
        | some left, some right => ROps.op o left right
        | none, some right => ROps.op o RDefault.dflt right
        | some left, none => ROps.op o left RDefault.dflt
        | none, none => throw .unreachableCode
      return (index, newvalue) : Res (Nat × V))) = f
    have hk : ∀ i kv, f i = .ok kv → kv.1 = i := by
      intro i kv hkv
      subst hf
      revert hkv
      simp only
      split <;> rename_i heq1 heq2 <;> intro hkv
      all_goals
        simp only [bind, Except.bind, pure, Except.pure, throw, throwThe, MonadExceptOf.throw] at hkv
        first
          | (split at hkv
             · cases hkv
             · cases hkv; rfl)
          | cases hkv
    have hkeys : ∀ (l : List Nat) z, l.mapM f = .ok z → z.map (·.1) = l := by
      intro l
      induction l with
      | nil => intro z hz; simp only [List.mapM_nil, pure, Except.pure, Except.ok.injEq] at hz; subst hz; rfl
      | cons x xs ih =>
        intro z hz
        rw [List.mapM_cons] at hz
        rcases hx : f x with p | y
        · rw [hx] at hz; cases hz
        · rcases hxs : xs.mapM f with p | ys
          · rw [hx, hxs] at hz; cases hz
          · rw [hx, hxs] at hz
            simp only [bind, Except.bind, pure, Except.pure, Except.ok.injEq] at hz
            subst hz
            rw [List.map_cons, ih ys hxs, hk x y hx]
    rcases hl : w.list.mapM f with p | z
    · rcases hr : w'.list.mapM f with q | z'
      · simp [bind, Except.bind]
      · obtain ⟨zs, hz, -⟩ := mapM_perm hp.symm hr
        rw [hl] at hz; cases hz
    · obtain ⟨z', hr, hpz⟩ := mapM_perm hp hl
      rw [hr]
      simp only [bind, Except.bind, pure, Except.pure]
      have hnz : (z.map (·.1)).Nodup := by rw [hkeys _ _ hl]; exact w.nodup
      have hnz' : (z'.map (·.1)).Nodup := by rw [hkeys _ _ hr]; exact w'.nodup
      refine SameMap.hist rfl ⟨HMap.nodup_collect _, HMap.nodup_collect _, fun j => ?_⟩
      simp only
      rw [HMap.get_collect _ hnz, HMap.get_collect _ hnz']
      exact HMap.find_perm hpz hnz j

theorem SameHist.opOwned {h h' k k' : HashHistogram A V} (s : SameHist h h') (t : SameHist k k') (o : Op) (w : k.values.Order) (w' : k'.values.Order) :
    match h.opOwned o k w, h'.opOwned o k' w' with
    | .error _, .error _ => True
    | .ok (.error _), .ok (.error _) => True
    | .ok (.ok m), .ok (.ok m') => SameHist m m'
    | _, _ => False := by
  obtain ⟨e1, e2⟩ := s.map.mergeLoop t.map o w w'
  simp only [HashHistogram.opOwned, s.axes, t.axes]
  by_cases hax : PEq.peq h'.axes k'.axes = false
  · simp [hax]
  · simp only [hax, Bool.false_eq_true, if_false]
    rcases hp : (HashHistogram.mergeLoop o w.list h.values).2 with _ | p
    · rw [e1.1 hp]
      exact SameMap.hist rfl (e2 hp)
    · rcases hq : (HashHistogram.mergeLoop o w'.list h'.values).2 with _ | q
      · rw [e1.2 hq] at hp; cases hp
      · trivial

theorem SameHist.opAssign {h h' k k' : HashHistogram A V} (s : SameHist h h') (t : SameHist k k') (o : Op) (w : k.values.Order) (w' : k'.values.Order) :
    ((h.opAssign o k w).2 = none ↔ (h'.opAssign o k' w').2 = none) ∧
    ((h.opAssign o k w).2 = none → SameHist (h.opAssign o k w).1 (h'.opAssign o k' w').1) := by
  obtain ⟨e1, e2⟩ := s.map.mergeLoop t.map o w w'
  simp only [HashHistogram.opAssign, s.axes, t.axes]
  by_cases hax : PEq.peq h'.axes k'.axes = false
  · simp [hax]
  · simp only [hax, Bool.false_eq_true, if_false]
    exact ⟨e1, fun hn => SameMap.hist rfl (e2 hn)⟩

/-! ## Programs -/
variable [PEq V] {R : Type}
open HistProg (set MapOrders)

omit [Cfg] [Axis A] [ROps V] [RDefault V] [PEq A] [PEq V] in
theorem SameHist.set {env env' : Nat → HashHistogram A V} (he : ∀ x, SameHist (env x) (env' x)) (x : Nat) {h h' : HashHistogram A V} (s : SameHist h h') :
    ∀ y, SameHist (set env x h y) (set env' x h' y) := by
  intro y
  unfold HistProg.set
  split
  · exact s
  · exact he y

/-- **C81.** Programs with sparse histograms compute the same for every hasher: run with the maps in any two orders, on variables that hold the same, a program gives the
same result and leaves variables that hold the same, or panics both times. -/
theorem C81_program (p : SparseProg A V R) (w w' : Nat → MapOrders A V) {env env' : Nat → HashHistogram A V} (he : ∀ x, SameHist (env x) (env' x)) :
    SparseProg.SameEnd (p.run w env) (p.run w' env') := by
  induction p generalizing w w' env env' with
  | done r => exact ⟨rfl, he⟩
  | new x axes k ih => exact ih _ _ (SameHist.set he x (SameHist.refl HMap.nodup_empty))
  | fromMap x axes l k ih =>
    simp only [SparseProg.run]
    rcases hf : HashHistogram.fromMap axes (HMap.collect l) with p | e | h
    · exact ih _ _ _ he
    · exact ih _ _ _ he
    · refine ih _ _ _ (SameHist.set he x (SameHist.refl ?_))
      have : h.values = HMap.collect l := by
        revert hf
        by_cases hem : (HMap.collect l).entries.isEmpty = true
        · simp only [HashHistogram.fromMap, hem, if_true, bind, Except.bind, pure, Except.pure]
          intro hf; cases hf; rfl
        · rcases hnb : Axis.numBins axes with p | n
          · simp [HashHistogram.fromMap, hem, hnb, bind, Except.bind]
          · simp only [HashHistogram.fromMap, hem, hnb, bind, Except.bind, pure, Except.pure, Bool.false_eq_true, if_false]
            split
            · intro hf; cases hf; rfl
            · intro hf; cases hf
      rw [this]
      exact HMap.nodup_collect l
  | call x c k ih =>
    obtain ⟨h1, h2⟩ := (he x).call c
    simp only [SparseProg.run, h1]
    exact ih _ _ _ (SameHist.set he x h2)
  | value x c k ih =>
    simp only [SparseProg.run, (he x).value_coord c]
    exact ih _ _ _ he
  | valueAt x i k ih =>
    simp only [SparseProg.run, (he x).value i]
    exact ih _ _ _ he
  | valueMut x c f k ih =>
    simp only [SparseProg.run, HashHistogram.valueMut, ← (he x).axes]
    rcases Axis.index (env x).axes c with p | _ | i
    · exact ih _ _ _ he
    · exact ih _ _ _ he
    · simp only [bind, Except.bind, pure, Except.pure]
      have := (he x).valueAtIndexMut i f
      rcases h1 : (env x).valueAtIndexMut i f with _ | r <;> rcases h2 : (env' x).valueAtIndexMut i f with _ | r' <;> rw [h1, h2] at this
      · exact ih _ _ _ he
      · exact this.elim
      · exact this.elim
      · simp only [this.1]
        exact ih _ _ _ (SameHist.set he x this.2)
  | valueAtMut x i f k ih =>
    simp only [SparseProg.run]
    have := (he x).valueAtIndexMut i f
    rcases h1 : (env x).valueAtIndexMut i f with _ | r <;> rcases h2 : (env' x).valueAtIndexMut i f with _ | r' <;> rw [h1, h2] at this
    · exact ih _ _ _ he
    · exact this.elim
    · exact this.elim
    · simp only [this.1]
      exact ih _ _ _ (SameHist.set he x this.2)
  | forValues x f k ih =>
    simp only [SparseProg.run]
    obtain ⟨e1, e2⟩ := (he x).valuesMut f ((w 0).map _) ((w' 0).map _)
    rcases h1 : (env x).valuesMut ((w 0).map _) f with ⟨a, _ | p⟩ <;> rcases h2 : (env' x).valuesMut ((w' 0).map _) f with ⟨a', _ | p'⟩ <;>
      rw [h1, h2] at e1 e2
    · exact ih _ _ (SameHist.set he x (e2 rfl))
    · exact absurd (e1.1 rfl) (by simp)
    · exact absurd (e1.2 rfl) (by simp)
    · trivial
  | forEach x f k ih =>
    simp only [SparseProg.run]
    obtain ⟨e1, e2⟩ := (he x).iterMut f ((w 0).map _) ((w' 0).map _)
    rcases h1 : (env x).iterMut ((w 0).map _) f with ⟨a, _ | p⟩ <;> rcases h2 : (env' x).iterMut ((w' 0).map _) f with ⟨a', _ | p'⟩ <;>
      rw [h1, h2] at e1 e2
    · exact ih _ _ (SameHist.set he x (e2 rfl))
    · exact absurd (e1.1 rfl) (by simp)
    · exact absurd (e1.2 rfl) (by simp)
    · trivial
  | items x k ih =>
    simp only [SparseProg.run]
    have := (he x).items ((w 0).map _) ((w' 0).map _)
    rcases h1 : (env x).iter ((w 0).map _) with p | l <;> rcases h2 : (env' x).iter ((w' 0).map _) with p' | l' <;> rw [h1, h2] at this
    · trivial
    · exact this.elim
    · exact this.elim
    · simp only at this ⊢
      rw [this]
      exact ih _ _ _ he
  | fold x β b f comm k ih =>
    simp only [SparseProg.run, (he x).fold ((w 0).map _) ((w' 0).map _) b f comm]
    exact ih _ _ _ he
  | len x k ih =>
    have : (env x).asMap.len = (env' x).asMap.len := (he x).map.perm.length_eq
    simp only [SparseProg.run, this]
    exact ih _ _ _ he
  | eq x y k ih =>
    simp only [SparseProg.run, (he x).beq (he y)]
    exact ih _ _ _ he
  | clone x y k ih => exact ih _ _ (SameHist.set he y (he x))
  | borrow o x y z k ih =>
    simp only [SparseProg.run]
    have := (he x).opBorrow (he y) o ((w 0).keys _ _) ((w' 0).keys _ _)
    rcases h1 : (env x).opBorrow o (env y) ((w 0).keys _ _) with p | e | m <;>
      rcases h2 : (env' x).opBorrow o (env' y) ((w' 0).keys _ _) with p' | e' | m' <;> rw [h1, h2] at this
    all_goals first | exact False.elim this | skip
    · trivial
    · exact ih _ _ _ he
    · exact ih _ _ _ (SameHist.set he z this)
  | owned o x y z k ih =>
    simp only [SparseProg.run]
    have := (he x).opOwned (he y) o ((w 0).map _) ((w' 0).map _)
    rcases h1 : (env x).opOwned o (env y) ((w 0).map _) with p | e | m <;>
      rcases h2 : (env' x).opOwned o (env' y) ((w' 0).map _) with p' | e' | m' <;> rw [h1, h2] at this
    all_goals first | exact False.elim this | skip
    · trivial
    · exact ih _ _ _ he
    · exact ih _ _ _ (SameHist.set he z this)
  | assign o x y k ih =>
    simp only [SparseProg.run]
    obtain ⟨e1, e2⟩ := (he x).opAssign (he y) o ((w 0).map _) ((w' 0).map _)
    rcases h1 : (env x).opAssign o (env y) ((w 0).map _) with ⟨a, _ | p⟩ <;> rcases h2 : (env' x).opAssign o (env' y) ((w' 0).map _) with ⟨a', _ | p'⟩ <;>
      rw [h1, h2] at e1 e2
    · exact ih _ _ (SameHist.set he x (e2 rfl))
    · exact absurd (e1.1 rfl) (by simp)
    · exact absurd (e1.2 rfl) (by simp)
    · trivial

/-- **C81**, for a program that makes its histograms itself -/
theorem C81_from_new (p : SparseProg A V R) (w w' : Nat → MapOrders A V) (axes : Nat → A) :
    SparseProg.SameEnd (p.run w fun x => HashHistogram.new (axes x)) (p.run w' fun x => HashHistogram.new (axes x)) :=
  C81_program p w w' fun _ => SameHist.refl HMap.nodup_empty
end

section
attribute [local instance] dbg64 numPEq
/-- `{0: 255, 1: 0}` -/
def exFull : HashHistogram (CategoryNoFlow String) (MInt .u8) := ⟨exAxis, ⟨[(0, .lit 255), (1, .lit 0)]⟩⟩
/-- `{0: 1, 1: 1}` -/
def exOnes : HashHistogram (CategoryNoFlow String) (MInt .u8) := ⟨exAxis, ⟨[(0, .lit 1), (1, .lit 1)]⟩⟩

/-- **C81**, what does depend on the order: the content left behind by an operation that panics in the middle (seen after a `catch_unwind`), because the other bins have been
reached or not; and, if several bins panic, which of the panics is raised. -/
theorem C81_counterexample_panic :
    (∃ w w' : exOnes.values.Order, (exFull.opAssign .add exOnes w).2 = some .overflow ∧ (exFull.opAssign .add exOnes w').2 = some .overflow ∧
      (exFull.opAssign .add exOnes w).1.valueAtIndex 1 = some (.lit 0) ∧ (exFull.opAssign .add exOnes w').1.valueAtIndex 1 = some (.lit 1)) ∧
    (∃ w w' : exFull.values.Order, (exFull.valuesMut w fun v => if v = .lit 0 then (v, some .divZero) else (v, some .overflow)).2 = some .overflow ∧
      (exFull.valuesMut w' fun v => if v = .lit 0 then (v, some .divZero) else (v, some .overflow)).2 = some .divZero) := by
  refine ⟨⟨⟨exOnes.values.entries, List.Perm.refl _⟩, ⟨[(1, .lit 1), (0, .lit 1)], List.Perm.swap ..⟩, ?_⟩,
    ⟨exFull.values.entries, List.Perm.refl _⟩, ⟨[(1, .lit 0), (0, .lit 255)], List.Perm.swap ..⟩, ?_⟩ <;> decide +kernel
end
end NdHist
