import Verif.SpecBlame
import Verif.Lemmas.Hist
/-!
# C107: which panics a program with histograms can meet
-/
namespace NdHist
variable {A V R : Type} [Cfg] [Axis A]

set_option linter.unusedSectionVars false
set_option linter.unusedSimpArgs false

/-! ## Loops -/

theorem updAt_blame {f : Upd V} {i : Nat} {l : List V} {p : Panic} (h : (updAt f i l).2 = some p) : ∃ v, (f v).2 = some p := by
  induction l generalizing i with
  | nil => cases i <;> simp [updAt] at h
  | cons v vs ih =>
    cases i with
    | zero => exact ⟨v, h⟩
    | succ i => exact ih h

theorem updEach_blame {f : Nat → Upd V} {i : Nat} {l : List V} {p : Panic} (h : (updEach f i l).2 = some p) : ∃ k v, k < l.length ∧ (f (i + k) v).2 = some p := by
  obtain ⟨k, v, h1, h2, -⟩ := updEach_panic h
  exact ⟨k, v, (List.getElem?_eq_some_iff.1 h1).1, h2⟩

theorem zipUpd_blame {f : V → Upd V} {l r : List V} {p : Panic} (h : (zipUpd f l r).2 = some p) : ∃ v v', (f v' v).2 = some p := by
  induction l generalizing r with
  | nil => simp [zipUpd] at h
  | cons v vs ih =>
    cases r with
    | nil => simp [zipUpd] at h
    | cons w ws =>
      rcases hf : f w v with ⟨v', _ | q⟩
      · simp only [zipUpd, hf] at h
        exact ih h
      · simp only [zipUpd, hf] at h
        exact ⟨v, w, by rw [hf]; exact h⟩

theorem zipRes_blame {f : V → V → Res V} {l r : List V} : (∀ p, zipRes f l r = .error p → ∃ v v', f v v' = .error p) ∧ ∀ z, zipRes f l r = .ok z → z.length = min l.length r.length := by
  induction l generalizing r with
  | nil => constructor <;> intro z h <;> simp [zipRes, pure, Except.pure] at h; subst h; simp
  | cons v vs ih =>
    cases r with
    | nil => constructor <;> intro z h <;> simp [zipRes, pure, Except.pure] at h; subst h; simp
    | cons w ws =>
      rcases hf : f v w with q | x
      · constructor
        · intro p h
          simp only [zipRes, hf, bind, Except.bind, Except.error.injEq] at h
          exact ⟨v, w, by rw [hf, h]⟩
        · intro z h
          simp [zipRes, hf, bind, Except.bind] at h
      · rcases hz : zipRes f vs ws with q | xs
        · constructor
          · intro p h
            simp only [zipRes, hf, hz, bind, Except.bind, Except.error.injEq] at h
            exact ih.1 p (by rw [hz, h])
          · intro z h
            simp [zipRes, hf, hz, bind, Except.bind] at h
        · constructor
          · intro p h
            simp [zipRes, hf, hz, bind, Except.bind, pure, Except.pure] at h
          · intro z h
            simp only [zipRes, hf, hz, bind, Except.bind, pure, Except.pure, Except.ok.injEq] at h
            subst h
            have := ih.2 xs hz
            simp [this, Nat.succ_min_succ]

theorem tag_blame (k : Nat) (x : Res V) : (∀ p, (x >>= fun v => (pure (k, v) : Res (Nat × V))) = .error p → x = .error p) ∧ ∀ e, (x >>= fun v => (pure (k, v) : Res (Nat × V))) = .ok e → e.1 = k := by
  cases x with
  | error q =>
    constructor
    · intro p hp; cases hp; rfl
    · intro e he; cases he
  | ok v =>
    constructor
    · intro p hp; cases hp
    · intro e he; cases he; rfl

theorem mapM_blame {P : Panic → Prop} (g : Nat → Res (Nat × V)) (ks : List Nat) (hg : ∀ k ∈ ks, (∀ p, g k = .error p → P p) ∧ ∀ e, g k = .ok e → e.1 = k)
    (res : Res (List (Nat × V))) (hr : ks.mapM g = res) : (∀ p, res = .error p → P p) ∧ ∀ es, res = .ok es → es.map (·.1) = ks := by
  induction ks generalizing res with
  | nil =>
    subst hr
    constructor
    · intro p hp; simp [pure, Except.pure] at hp
    · intro es hes
      simp only [List.mapM_nil, pure, Except.pure, Except.ok.injEq] at hes
      subst hes; rfl
  | cons k ks ih =>
    have ih' := ih (fun j hj => hg j (List.mem_cons_of_mem _ hj)) _ rfl
    obtain ⟨h1, h2⟩ := hg k List.mem_cons_self
    rw [List.mapM_cons] at hr
    cases hx : g k with
    | error q =>
      simp only [hx, bind, Except.bind] at hr
      subst hr
      exact ⟨fun p hp => h1 p (by rw [hx]; cases hp; rfl), fun es hes => by cases hes⟩
    | ok e =>
      cases hy : ks.mapM g with
      | error q =>
        simp only [hx, hy, bind, Except.bind] at hr
        subst hr
        exact ⟨fun p hp => ih'.1 p (by rw [hy]; cases hp; rfl), fun es hes => by cases hes⟩
      | ok es' =>
        simp only [hx, hy, bind, Except.bind, pure, Except.pure] at hr
        subst hr
        refine ⟨fun p hp => (by cases hp), fun es hes => ?_⟩
        cases hes
        simp [ih'.2 es' hy, h2 e hx]

/-! ## Dense histograms -/

/-- over the axis `a`, with one value per bin -/
def VecHistogram.Over (a : A) (n : Nat) (h : VecHistogram A V) : Prop := h.axes = a ∧ h.values.length = n

namespace VecHistogram
variable {a : A} {n : Nat}

theorem valueMut_blame (ht : TotalAxis a n) {h : VecHistogram A V} (ho : h.Over a n) (c : Axis.Coordinate A) (f : Upd V) :
    h.valueMut c f = .ok none ∨ ∃ r, h.valueMut c f = .ok (some r) ∧ r.1.Over a n ∧ ∀ p, r.2 = some p → ∃ v, (f v).2 = some p := by
  obtain ⟨o, hi⟩ := ht.total c
  obtain ⟨rfl, hl⟩ := ho
  cases o with
  | none => left; simp [valueMut, hi, bind, Except.bind, pure, Except.pure]
  | some i =>
    have hlt : i < h.values.length := by rw [hl]; exact ht.lawful.index_lt c i hi
    right
    refine ⟨({ h with values := (updAt f i h.values).1 }, (updAt f i h.values).2), by simp only [valueMut, hi, valueAtIndexMut, List.getElem?_eq_getElem hlt, bind, Except.bind, pure, Except.pure], ⟨rfl, ?_⟩, ?_⟩
    · show (updAt f i h.values).1.length = n
      rw [updAt_length, hl]
    · intro p hp
      exact updAt_blame hp

theorem call_blame (ht : TotalAxis a n) {h : VecHistogram A V} (ho : h.Over a n) (c : Call V (Axis.Coordinate A)) :
    (h.call c).1.Over a n ∧ ∀ p, (h.call c).2 = some p → ∃ v, (c.on v).2 = some p := by
  rw [call_eq]
  rcases valueMut_blame ht ho c.coord c.on with e | ⟨r, e, h1, h2⟩
  · rw [e]; exact ⟨ho, fun p hp => by cases hp⟩
  · rw [e]; exact ⟨h1, h2⟩

theorem value_blame (ht : TotalAxis a n) {h : VecHistogram A V} (ho : h.Over a n) (c : Axis.Coordinate A) : ∃ o, h.value c = .ok o := by
  obtain ⟨o, hi⟩ := ht.total c
  obtain ⟨rfl, hl⟩ := ho
  cases o with
  | none => exact ⟨none, by simp [value, hi, bind, Except.bind, pure, Except.pure]⟩
  | some i => exact ⟨_, by simp only [value, hi, bind, Except.bind, pure, Except.pure]; rfl⟩

theorem iterMut_blame (ht : TotalAxis a n) {h : VecHistogram A V} (ho : h.Over a n) (f : Nat → Axis.Interval A → Upd V) :
    (h.iterMut f).1.Over a n ∧ ∀ p, (h.iterMut f).2 = some p → ∃ i b v, (f i b v).2 = some p := by
  obtain ⟨rfl, hl⟩ := ho
  simp only [iterMut, ht.lawful.numBins]
  have htail : h.iterMutTail n = none := by simp [iterMutTail, hl]
  rw [htail, Option.or_none]
  refine ⟨⟨rfl, ?_⟩, fun p hp => ?_⟩
  · simp only [List.length_append, updEach_length, List.length_take, List.length_drop]
    omega
  · obtain ⟨k, v, h1, h2⟩ := updEach_blame hp
    rw [List.length_take] at h1
    obtain ⟨b, hb⟩ := ht.lawful.bin_some k (by omega)
    simp only [Nat.zero_add, hb] at h2
    exact ⟨k, b, v, h2⟩

variable [PEq A] [ROps V]

theorem opBorrow_blame {l r : VecHistogram A V} (hl : l.Over a n) (hr : r.Over a n) (o : Op) :
    (∀ p, l.opBorrow o r = .error p → ∃ v v' : V, ROps.op o v v' = .error p) ∧ ∀ m, l.opBorrow o r = .ok (.ok m) → m.Over a n := by
  obtain ⟨rfl, h1⟩ := hl
  obtain ⟨h2, h3⟩ := hr
  simp only [opBorrow]
  split
  · constructor <;> intro z hz <;> simp [pure, Except.pure] at hz
  · rcases hz : zipRes (ROps.op o) l.values r.values with q | xs
    · constructor
      · intro p hp
        simp only [bind, Except.bind, Except.error.injEq] at hp
        exact zipRes_blame.1 p (by rw [hz, hp])
      · intro m hm
        simp [bind, Except.bind] at hm
    · constructor
      · intro p hp
        simp [bind, Except.bind, pure, Except.pure] at hp
      · intro m hm
        simp only [bind, Except.bind, pure, Except.pure, Except.ok.injEq] at hm
        subst hm
        exact ⟨rfl, by rw [zipRes_blame.2 xs hz, h1, h3, Nat.min_self]⟩

theorem opOwned_blame {l r : VecHistogram A V} (hl : l.Over a n) (o : Op) :
    (∀ p, l.opOwned o r = .error p → ∃ v v' : V, (ROps.opAssign o v' v).2 = some p) ∧ ∀ m, l.opOwned o r = .ok (.ok m) → m.Over a n := by
  obtain ⟨rfl, h1⟩ := hl
  simp only [opOwned]
  split
  · constructor <;> intro z hz <;> cases hz
  · rcases hx : (zipUpd (ROps.opAssign o) l.values r.values).2 with _ | q
    · constructor
      · intro p hp; cases hp
      · intro m hm
        simp only [Except.ok.injEq] at hm
        subst hm
        exact ⟨rfl, by show (zipUpd _ _ _).1.length = n; rw [zipUpd_length, h1]⟩
    · constructor
      · intro p hp
        simp only [Except.error.injEq] at hp
        subst hp
        exact zipUpd_blame hx
      · intro m hm; cases hm

theorem opAssign_blame (hp : PEq.peq a a = true) {l r : VecHistogram A V} (hl : l.Over a n) (hr : r.Over a n) (o : Op) :
    (l.opAssign o r).1.Over a n ∧ ∀ p, (l.opAssign o r).2 = some p → ∃ v v' : V, (ROps.opAssign o v' v).2 = some p := by
  obtain ⟨rfl, h1⟩ := hl
  obtain ⟨h2, h3⟩ := hr
  simp only [opAssign, h2, hp, Bool.true_eq_false, if_false]
  exact ⟨⟨rfl, by show (zipUpd _ _ _).1.length = n; rw [zipUpd_length, h1]⟩, fun p hp => zipUpd_blame hp⟩
end VecHistogram

theorem VecHistogram.Over.set {a : A} {n : Nat} {env : Nat → VecHistogram A V} (h : ∀ x, (env x).Over a n) (x : Nat) {m : VecHistogram A V} (hm : m.Over a n) :
    ∀ y, (HistProg.set env x m y).Over a n := by
  intro y
  unfold HistProg.set
  split
  · exact hm
  · exact h y

/-- **C107 (dense).** Run any program with any number of histograms over the same axis, whose methods do not panic (and which equals itself). Every panic that occurs, caught by the program or not, is one of the program's own closures or
of an operation on two values (`E`): the histograms themselves add none. -/
theorem C107_dense [PEq A] [ROps V] [RDefault V] {E : Panic → Prop} {a : A} {n : Nat} (ht : TotalAxis a n) (hp : PEq.peq a a = true) (prog : HistProg A V R) (hE : prog.OwnPanics E)
    (env : Nat → VecHistogram A V) (ho : ∀ x, (env x).axes = a ∧ (env x).values.length = n) :
    (∀ p ∈ prog.panicsDense env, E p) ∧ (∀ p, prog.runDense env = .error p → E p) ∧ (prog.panicsDense env = [] → ∃ fin r, prog.runDense env = .ok (fin, r)) := by
  have ho' : ∀ x, (env x).Over a n := ho
  clear ho
  induction prog generalizing env with
  | done r => exact ⟨fun p h => (by cases h), fun p h => (by cases h), fun _ => ⟨_, _, rfl⟩⟩
  | call x c k ih =>
    obtain ⟨h1, h2⟩ := VecHistogram.call_blame ht (ho' x) c
    obtain ⟨g1, g2, g3⟩ := ih ((env x).call c).2 (hE.2 _) _ (VecHistogram.Over.set ho' x h1)
    refine ⟨?_, g2, ?_⟩
    · intro p hm
      simp only [HistProg.panicsDense, List.mem_append, Option.mem_toList, Option.mem_def] at hm
      rcases hm with hm | hm
      · obtain ⟨v, hv⟩ := h2 p hm; exact hE.1 v p hv
      · exact g1 p hm
    · intro hnil
      simp only [HistProg.panicsDense, List.append_eq_nil_iff] at hnil
      exact g3 hnil.2
  | value x c k ih =>
    obtain ⟨o, hv⟩ := VecHistogram.value_blame ht (ho' x) c
    obtain ⟨g1, g2, g3⟩ := ih (((env x).value c).map (·.getD RDefault.dflt)) (hE _) env ho'
    refine ⟨?_, g2, ?_⟩
    · intro p hm
      simp only [HistProg.panicsDense, List.mem_append] at hm
      rcases hm with hm | hm
      · rw [hv] at hm; cases hm
      · exact g1 p hm
    · intro hnil
      simp only [HistProg.panicsDense, List.append_eq_nil_iff] at hnil
      exact g3 hnil.2
  | valueAt x i k ih => exact ih _ (hE _) env ho'
  | valueMut x c f k ih =>
    rcases VecHistogram.valueMut_blame ht (ho' x) c f with e | ⟨r, e, h1, h2⟩
    · simp only [HistProg.panicsDense, HistProg.runDense, e]
      exact ih _ (hE.2 _) env ho'
    · obtain ⟨g1, g2, g3⟩ := ih r.2 (hE.2 _) _ (VecHistogram.Over.set ho' x h1)
      simp only [HistProg.panicsDense, HistProg.runDense, e]
      refine ⟨?_, g2, ?_⟩
      · intro p hm
        simp only [List.mem_append, Option.mem_toList, Option.mem_def] at hm
        rcases hm with hm | hm
        · obtain ⟨v, hv⟩ := h2 p hm; exact hE.1 v p hv
        · exact g1 p hm
      · intro hnil
        simp only [List.append_eq_nil_iff] at hnil
        exact g3 hnil.2
  | forEach x f k ih =>
    obtain ⟨h1, h2⟩ := VecHistogram.iterMut_blame ht (ho' x) f
    simp only [HistProg.panicsDense, HistProg.runDense]
    rcases hx : (env x).iterMut f with ⟨m, _ | p⟩
    · rw [hx] at h1
      exact ih hE.2 _ (VecHistogram.Over.set ho' x h1)
    · rw [hx] at h2
      obtain ⟨i, b, v, hv⟩ := h2 p rfl
      have := hE.1 i b v p hv
      refine ⟨fun q hq => ?_, fun q hq => ?_, fun h => (by cases h)⟩
      · rw [List.mem_singleton.1 hq]; exact this
      · cases hq; exact this
  | clone x y k ih => exact ih hE _ (VecHistogram.Over.set ho' y (ho' x))
  | borrow o x y z k ih =>
    obtain ⟨h1, h2⟩ := VecHistogram.opBorrow_blame (ho' x) (ho' y) o
    simp only [HistProg.panicsDense, HistProg.runDense]
    rcases hx : (env x).opBorrow o (env y) with p | e | m
    · obtain ⟨v, v', hv⟩ := h1 p hx
      have := hE.1 v v' p hv
      refine ⟨fun q hq => ?_, fun q hq => ?_, fun h => (by cases h)⟩
      · rw [List.mem_singleton.1 hq]; exact this
      · cases hq; exact this
    · exact ih _ (hE.2 _) env ho'
    · exact ih _ (hE.2 _) _ (VecHistogram.Over.set ho' z (h2 m hx))
  | owned o x y z k ih =>
    obtain ⟨h1, h2⟩ := VecHistogram.opOwned_blame (r := env y) (ho' x) o
    simp only [HistProg.panicsDense, HistProg.runDense]
    rcases hx : (env x).opOwned o (env y) with p | e | m
    · obtain ⟨v, v', hv⟩ := h1 p hx
      have := hE.1 v v' p hv
      refine ⟨fun q hq => ?_, fun q hq => ?_, fun h => (by cases h)⟩
      · rw [List.mem_singleton.1 hq]; exact this
      · cases hq; exact this
    · exact ih _ (hE.2 _) env ho'
    · exact ih _ (hE.2 _) _ (VecHistogram.Over.set ho' z (h2 m hx))
  | assign o x y k ih =>
    obtain ⟨h1, h2⟩ := VecHistogram.opAssign_blame hp (ho' x) (ho' y) o
    simp only [HistProg.panicsDense, HistProg.runDense]
    rcases hx : (env x).opAssign o (env y) with ⟨m, _ | p⟩
    · rw [hx] at h1
      exact ih hE.2 _ (VecHistogram.Over.set ho' x h1)
    · rw [hx] at h2
      obtain ⟨v, v', hv⟩ := h2 p rfl
      have := hE.1 v v' p hv
      refine ⟨fun q hq => ?_, fun q hq => ?_, fun h => (by cases h)⟩
      · rw [List.mem_singleton.1 hq]; exact this
      · cases hq; exact this

/-! ## Sparse histograms -/

/-- over the axis `a`, with bin numbers as keys -/
def HashHistogram.Over (a : A) (n : Nat) (h : HashHistogram A V) : Prop := h.axes = a ∧ ∀ k ∈ h.values.keys, k < n

theorem updKeys_blame {f : Nat → Upd V} {ks : List Nat} {m : HMap Nat V} {n : Nat} (hk : ∀ k ∈ ks, k < n) (hm : ∀ k ∈ m.keys, k < n) :
    (∀ k ∈ (HashHistogram.updKeys f ks m).1.keys, k < n) ∧ ∀ p, (HashHistogram.updKeys f ks m).2 = some p → ∃ k v, k < n ∧ (f k v).2 = some p := by
  induction ks generalizing m with
  | nil => exact ⟨hm, fun p hp => by cases hp⟩
  | cons k ks ih =>
    have hks : ∀ j ∈ ks, j < n := fun j hj => hk j (List.mem_cons_of_mem _ hj)
    have hk0 : k < n := hk k List.mem_cons_self
    have hins : ∀ v, ∀ j ∈ (m.insert k v).keys, j < n := by
      intro v j hj
      rcases (HMap.mem_keys_insert m k j v).1 hj with rfl | hj
      · exact hk0
      · exact hm j hj
    rcases hg : m.get k with _ | v
    · simp only [HashHistogram.updKeys, hg]; exact ih hks hm
    · rcases hf : f k v with ⟨v', _ | q⟩
      · simp only [HashHistogram.updKeys, hg, hf]; exact ih hks (hins v')
      · simp only [HashHistogram.updKeys, hg, hf]
        refine ⟨hins v', fun p hp => ⟨k, v, hk0, ?_⟩⟩
        rw [hf]; exact hp

namespace HashHistogram
variable {a : A} {n : Nat}

theorem valueMut_blame (ht : TotalAxis a n) {h : HashHistogram A V} (ho : h.Over a n) (c : Axis.Coordinate A) (f : Upd V) :
    h.valueMut c f = .ok none ∨ ∃ r, h.valueMut c f = .ok (some r) ∧ r.1.Over a n ∧ ∀ p, r.2 = some p → ∃ v, (f v).2 = some p := by
  obtain ⟨o, hi⟩ := ht.total c
  obtain ⟨rfl, hl⟩ := ho
  cases o with
  | none => left; simp [valueMut, hi, bind, Except.bind, pure, Except.pure]
  | some i =>
    rcases hg : h.values.get i with _ | v
    · left; simp only [valueMut, hi, valueAtIndexMut, hg, bind, Except.bind, pure, Except.pure]
    · right
      refine ⟨_, by simp only [valueMut, hi, valueAtIndexMut, hg, bind, Except.bind, pure, Except.pure]; rfl, ⟨rfl, ?_⟩, fun p hp => ⟨v, hp⟩⟩
      intro k hk
      rcases (HMap.mem_keys_insert _ _ _ _).1 hk with rfl | hk
      · exact ht.lawful.index_lt c _ hi
      · exact hl k hk

variable [RDefault V]
theorem call_blame (ht : TotalAxis a n) {h : HashHistogram A V} (ho : h.Over a n) (c : Call V (Axis.Coordinate A)) :
    (h.call c).1.Over a n ∧ ∀ p, (h.call c).2 = some p → ∃ v, (c.on v).2 = some p := by
  obtain ⟨o, hi⟩ := ht.total c.coord
  obtain ⟨rfl, hl⟩ := ho
  rw [call_eq, hi]
  cases o with
  | none => exact ⟨⟨rfl, hl⟩, fun p hp => by cases hp⟩
  | some i =>
    refine ⟨⟨rfl, ?_⟩, fun p hp => ⟨_, hp⟩⟩
    intro k hk
    rcases (HMap.mem_keys_insert _ _ _ _).1 hk with rfl | hk
    · exact ht.lawful.index_lt _ _ hi
    · exact hl k hk

omit [RDefault V] in
theorem value_blame (ht : TotalAxis a n) {h : HashHistogram A V} (ho : h.Over a n) (c : Axis.Coordinate A) : ∃ o, h.value c = .ok o := by
  obtain ⟨o, hi⟩ := ht.total c
  obtain ⟨rfl, hl⟩ := ho
  cases o with
  | none => exact ⟨none, by simp [value, hi, bind, Except.bind, pure, Except.pure]⟩
  | some i => exact ⟨_, by simp only [value, hi, bind, Except.bind, pure, Except.pure]; rfl⟩

omit [RDefault V] in
theorem iterMut_blame (ht : TotalAxis a n) {h : HashHistogram A V} (ho : h.Over a n) (w : h.values.Order) (f : Nat → Axis.Interval A → Upd V) :
    (h.iterMut w f).1.Over a n ∧ ∀ p, (h.iterMut w f).2 = some p → ∃ i b v, (f i b v).2 = some p := by
  obtain ⟨rfl, hl⟩ := ho
  simp only [iterMut]
  have hks : ∀ k ∈ w.list.map (·.1), k < n := by
    intro k hk
    exact hl k ((w.perm.map _).mem_iff.1 hk)
  obtain ⟨h1, h2⟩ := updKeys_blame (f := fun i v => match Axis.bin h.axes i with
    | .error p => (v, some p)
    | .ok none => (v, some .expectNone)
    | .ok (some b) => f i b v) hks hl
  refine ⟨⟨rfl, h1⟩, fun p hp => ?_⟩
  obtain ⟨k, v, h3, h4⟩ := h2 p hp
  obtain ⟨b, hb⟩ := ht.lawful.bin_some k h3
  simp only [hb] at h4
  exact ⟨k, b, v, h4⟩

variable [PEq A] [ROps V]

theorem opBorrow_blame {l r : HashHistogram A V} (hl : l.Over a n) (hr : r.Over a n) (o : Op) (w : KeyOrder l r) :
    (∀ p, l.opBorrow o r w = .error p → ∃ v v' : V, ROps.op o v v' = .error p) ∧ ∀ m, l.opBorrow o r w = .ok (.ok m) → m.Over a n := by
  obtain ⟨rfl, h1⟩ := hl
  obtain ⟨h2, h3⟩ := hr
  have hw : ∀ k ∈ w.list, k < n := by
    intro k hk
    rcases (w.mem_iff k).1 hk with h | h
    · exact h1 k h
    · exact h3 k h
  simp only [opBorrow]
  split
  · constructor <;> intro z hz <;> simp [pure, Except.pure] at hz
  · generalize hrest : (List.mapM _ w.list : Res (List (Nat × V))) = rest
    obtain ⟨k1, k2⟩ := mapM_blame (P := fun p => ∃ v v' : V, ROps.op o v v' = .error p) _ w.list (by
      intro k hk
      rcases hg : l.values.get k with _ | v <;> rcases hg' : r.values.get k with _ | v'
      · exfalso
        rcases (w.mem_iff k).1 hk with h | h
        · exact (HMap.get_eq_none _ _).1 hg h
        · exact (HMap.get_eq_none _ _).1 hg' h
      all_goals
        simp only
        exact ⟨fun q hq => ⟨_, _, (tag_blame k _).1 q hq⟩, (tag_blame k _).2⟩) rest hrest
    cases rest with
    | error q => exact ⟨fun p hp => k1 p (by simpa [bind, Except.bind] using hp), fun m hm => by simp [bind, Except.bind] at hm⟩
    | ok es =>
      refine ⟨fun p hp => by simp [bind, Except.bind, pure, Except.pure] at hp, fun m hm => ?_⟩
      simp only [bind, Except.bind, pure, Except.pure, Except.ok.injEq] at hm
      subst hm
      refine ⟨rfl, fun k hk => hw k ?_⟩
      rw [← k2 es rfl]
      obtain ⟨v, hv⟩ := (HMap.get_isSome _ _).2 hk
      rw [HMap.get_collect es (by rw [k2 es rfl]; exact w.nodup)] at hv
      exact List.mem_map.2 ⟨(k, v), HMap.find_mem hv, rfl⟩

omit [Cfg] [Axis A] [PEq A] in
theorem mergeLoop_blame (o : Op) {rl : List (Nat × V)} {m : HMap Nat V} (hr : ∀ k ∈ rl.map (·.1), k < n) (hm : ∀ k ∈ m.keys, k < n) :
    (∀ k ∈ (mergeLoop o rl m).1.keys, k < n) ∧ ∀ p, (mergeLoop o rl m).2 = some p → ∃ v v' : V, (ROps.opAssign o v' v).2 = some p := by
  induction rl generalizing m with
  | nil => exact ⟨hm, fun p hp => by cases hp⟩
  | cons kv rl ih =>
    obtain ⟨k, y⟩ := kv
    have hks : ∀ j ∈ rl.map (·.1), j < n := fun j hj => hr j (List.mem_cons_of_mem _ hj)
    have hins : ∀ j ∈ (entryUpd m k (ROps.opAssign o y)).1.keys, j < n := by
      intro j hj
      rcases (HMap.mem_keys_insert _ _ _ _).1 hj with rfl | hj
      · exact hr _ List.mem_cons_self
      · exact hm j hj
    rcases hf : entryUpd m k (ROps.opAssign o y) with ⟨m', _ | q⟩
    · rw [hf] at hins
      simp only [mergeLoop, hf]; exact ih hks hins
    · rw [hf] at hins
      simp only [mergeLoop, hf]
      refine ⟨hins, fun p hp => ⟨(m.get k).getD RDefault.dflt, y, ?_⟩⟩
      have := congrArg Prod.snd hf
      exact this.trans hp

theorem opOwned_blame {l r : HashHistogram A V} (hl : l.Over a n) (hr : r.Over a n) (o : Op) (w : r.values.Order) :
    (∀ p, l.opOwned o r w = .error p → ∃ v v' : V, (ROps.opAssign o v' v).2 = some p) ∧ ∀ m, l.opOwned o r w = .ok (.ok m) → m.Over a n := by
  obtain ⟨rfl, h1⟩ := hl
  obtain ⟨h2, h3⟩ := hr
  obtain ⟨k1, k2⟩ := mergeLoop_blame o (rl := w.list) (m := l.values) (n := n) (fun k hk => h3 k ((w.perm.map _).mem_iff.1 hk)) h1
  simp only [opOwned]
  split
  · constructor <;> intro z hz <;> cases hz
  · rcases hx : (mergeLoop o w.list l.values).2 with _ | q
    · constructor
      · intro p hp; cases hp
      · intro m hm
        simp only [Except.ok.injEq] at hm
        subst hm
        exact ⟨rfl, k1⟩
    · constructor
      · intro p hp
        simp only [Except.error.injEq] at hp
        subst hp
        exact k2 _ hx
      · intro m hm; cases hm

theorem opAssign_blame (hp : PEq.peq a a = true) {l r : HashHistogram A V} (hl : l.Over a n) (hr : r.Over a n) (o : Op) (w : r.values.Order) :
    (l.opAssign o r w).1.Over a n ∧ ∀ p, (l.opAssign o r w).2 = some p → ∃ v v' : V, (ROps.opAssign o v' v).2 = some p := by
  obtain ⟨rfl, h1⟩ := hl
  obtain ⟨h2, h3⟩ := hr
  obtain ⟨k1, k2⟩ := mergeLoop_blame o (rl := w.list) (m := l.values) (n := n) (fun k hk => h3 k ((w.perm.map _).mem_iff.1 hk)) h1
  simp only [opAssign, h2, hp, Bool.true_eq_false, if_false]
  exact ⟨⟨rfl, k1⟩, k2⟩
end HashHistogram

theorem HashHistogram.Over.set {a : A} {n : Nat} {env : Nat → HashHistogram A V} (h : ∀ x, (env x).Over a n) (x : Nat) {m : HashHistogram A V} (hm : m.Over a n) :
    ∀ y, (HistProg.set env x m y).Over a n := by
  intro y
  unfold HistProg.set
  split
  · exact hm
  · exact h y

/-- **C107 (sparse).** The same with sparse histograms, whatever the orders of the hash maps. -/
theorem C107_sparse [PEq A] [ROps V] [RDefault V] {E : Panic → Prop} {a : A} {n : Nat} (ht : TotalAxis a n) (hp : PEq.peq a a = true) (prog : HistProg A V R) (hE : prog.OwnPanics E)
    (w : Nat → HistProg.MapOrders A V) (env : Nat → HashHistogram A V) (ho : ∀ x, (env x).axes = a ∧ ∀ k ∈ (env x).values.keys, k < n) :
    (∀ p ∈ prog.panicsSparse w env, E p) ∧ (∀ p, prog.runSparse w env = .error p → E p) ∧ (prog.panicsSparse w env = [] → ∃ fin r, prog.runSparse w env = .ok (fin, r)) := by
  have ho' : ∀ x, (env x).Over a n := ho
  clear ho
  induction prog generalizing env w with
  | done r => exact ⟨fun p h => (by cases h), fun p h => (by cases h), fun _ => ⟨_, _, rfl⟩⟩
  | call x c k ih =>
    obtain ⟨h1, h2⟩ := HashHistogram.call_blame ht (ho' x) c
    obtain ⟨g1, g2, g3⟩ := ih ((env x).call c).2 (hE.2 _) (fun i => w (i + 1)) _ (HashHistogram.Over.set ho' x h1)
    refine ⟨?_, g2, ?_⟩
    · intro p hm
      simp only [HistProg.panicsSparse, List.mem_append, Option.mem_toList, Option.mem_def] at hm
      rcases hm with hm | hm
      · obtain ⟨v, hv⟩ := h2 p hm; exact hE.1 v p hv
      · exact g1 p hm
    · intro hnil
      simp only [HistProg.panicsSparse, List.append_eq_nil_iff] at hnil
      exact g3 hnil.2
  | value x c k ih =>
    obtain ⟨o, hv⟩ := HashHistogram.value_blame ht (ho' x) c
    obtain ⟨g1, g2, g3⟩ := ih (((env x).value c).map (·.getD RDefault.dflt)) (hE _) (fun i => w (i + 1)) env ho'
    refine ⟨?_, g2, ?_⟩
    · intro p hm
      simp only [HistProg.panicsSparse, List.mem_append] at hm
      rcases hm with hm | hm
      · rw [hv] at hm; cases hm
      · exact g1 p hm
    · intro hnil
      simp only [HistProg.panicsSparse, List.append_eq_nil_iff] at hnil
      exact g3 hnil.2
  | valueAt x i k ih => exact ih _ (hE _) (fun i => w (i + 1)) env ho'
  | valueMut x c f k ih =>
    rcases HashHistogram.valueMut_blame ht (ho' x) c f with e | ⟨r, e, h1, h2⟩
    · simp only [HistProg.panicsSparse, HistProg.runSparse, e]
      exact ih _ (hE.2 _) _ env ho'
    · obtain ⟨g1, g2, g3⟩ := ih r.2 (hE.2 _) (fun i => w (i + 1)) _ (HashHistogram.Over.set ho' x h1)
      simp only [HistProg.panicsSparse, HistProg.runSparse, e]
      refine ⟨?_, g2, ?_⟩
      · intro p hm
        simp only [List.mem_append, Option.mem_toList, Option.mem_def] at hm
        rcases hm with hm | hm
        · obtain ⟨v, hv⟩ := h2 p hm; exact hE.1 v p hv
        · exact g1 p hm
      · intro hnil
        simp only [List.append_eq_nil_iff] at hnil
        exact g3 hnil.2
  | forEach x f k ih =>
    obtain ⟨h1, h2⟩ := HashHistogram.iterMut_blame ht (ho' x) ((w 0).map _) f
    simp only [HistProg.panicsSparse, HistProg.runSparse]
    rcases hx : (env x).iterMut ((w 0).map _) f with ⟨m, _ | p⟩
    · rw [hx] at h1
      exact ih hE.2 _ _ (HashHistogram.Over.set ho' x h1)
    · rw [hx] at h2
      obtain ⟨i, b, v, hv⟩ := h2 p rfl
      have := hE.1 i b v p hv
      refine ⟨fun q hq => ?_, fun q hq => ?_, fun h => (by cases h)⟩
      · rw [List.mem_singleton.1 hq]; exact this
      · cases hq; exact this
  | clone x y k ih => exact ih hE _ _ (HashHistogram.Over.set ho' y (ho' x))
  | borrow o x y z k ih =>
    obtain ⟨h1, h2⟩ := HashHistogram.opBorrow_blame (ho' x) (ho' y) o ((w 0).keys _ _)
    simp only [HistProg.panicsSparse, HistProg.runSparse]
    rcases hx : (env x).opBorrow o (env y) ((w 0).keys _ _) with p | e | m
    · obtain ⟨v, v', hv⟩ := h1 p hx
      have := hE.1 v v' p hv
      refine ⟨fun q hq => ?_, fun q hq => ?_, fun h => (by cases h)⟩
      · rw [List.mem_singleton.1 hq]; exact this
      · cases hq; exact this
    · exact ih _ (hE.2 _) _ env ho'
    · exact ih _ (hE.2 _) _ _ (HashHistogram.Over.set ho' z (h2 m hx))
  | owned o x y z k ih =>
    obtain ⟨h1, h2⟩ := HashHistogram.opOwned_blame (ho' x) (ho' y) o ((w 0).map _)
    simp only [HistProg.panicsSparse, HistProg.runSparse]
    rcases hx : (env x).opOwned o (env y) ((w 0).map _) with p | e | m
    · obtain ⟨v, v', hv⟩ := h1 p hx
      have := hE.1 v v' p hv
      refine ⟨fun q hq => ?_, fun q hq => ?_, fun h => (by cases h)⟩
      · rw [List.mem_singleton.1 hq]; exact this
      · cases hq; exact this
    · exact ih _ (hE.2 _) _ env ho'
    · exact ih _ (hE.2 _) _ _ (HashHistogram.Over.set ho' z (h2 m hx))
  | assign o x y k ih =>
    obtain ⟨h1, h2⟩ := HashHistogram.opAssign_blame hp (ho' x) (ho' y) o ((w 0).map _)
    simp only [HistProg.panicsSparse, HistProg.runSparse]
    rcases hx : (env x).opAssign o (env y) ((w 0).map _) with ⟨m, _ | p⟩
    · rw [hx] at h1
      exact ih hE.2 _ _ (HashHistogram.Over.set ho' x h1)
    · rw [hx] at h2
      obtain ⟨v, v', hv⟩ := h2 p rfl
      have := hE.1 v v' p hv
      refine ⟨fun q hq => ?_, fun q hq => ?_, fun h => (by cases h)⟩
      · rw [List.mem_singleton.1 hq]; exact this
      · cases hq; exact this
end NdHist
