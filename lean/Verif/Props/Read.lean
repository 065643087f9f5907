import Verif.SpecRead
import Verif.Props.Serde
/-!
# C65: which serialized trees are read, and as what
-/
namespace NdHist

/-! ## tools -/

theorem SVal.isKey_iff {name : String} {k : SVal} : k.isKey name = true ↔ k = .str name := by
  cases k <;> simp [SVal.isKey]
theorem SVal.isStr_iff {k : SVal} : k.isStr = true ↔ ∃ s, k = .str s := by
  cases k <;> simp [SVal.isStr]

theorem filter_eq_singleton {α : Type} {P : α → Bool} {l : List α} {x : α} :
    l.filter P = [x] ↔ ∃ b a, l = b ++ x :: a ∧ P x = true ∧ ∀ y ∈ b ++ a, P y = false := by
  constructor
  · intro h
    induction l with
    | nil => simp at h
    | cons y l ih =>
      by_cases hy : P y
      · rw [List.filter_cons_of_pos hy] at h
        injection h with h1 h2
        subst h1
        refine ⟨[], l, rfl, hy, fun z hz => ?_⟩
        have := List.filter_eq_nil_iff.1 h2 z hz
        simpa using this
      · rw [List.filter_cons_of_neg hy] at h
        obtain ⟨b, a, rfl, h1, h2⟩ := ih h
        refine ⟨y :: b, a, rfl, h1, ?_⟩
        intro z hz
        rcases List.mem_cons.1 hz with rfl | hz
        · simpa using hy
        · exact h2 z hz
  · rintro ⟨b, a, rfl, h1, h2⟩
    rw [List.filter_append, List.filter_cons_of_pos h1, List.filter_eq_nil_iff.2 fun z hz => by simp [h2 z (by simp [hz])],
      List.filter_eq_nil_iff.2 fun z hz => by simp [h2 z (by simp [hz])]]
    rfl

theorem fieldDe_iff {U : Type} {name : String} {de : SVal → Option U} {l : List (SVal × SVal)} {u : U} :
    fieldDe name de l = some u ↔ ∃ x, HasField l name x ∧ de x = some u := by
  have key : ∀ x, l.filter (fun kv => kv.1.isKey name) = [(.str name, x)] ↔ HasField l name x := by
    intro x
    rw [filter_eq_singleton]
    simp only [HasField]
    refine exists_congr fun b => exists_congr fun a => and_congr_right fun _ => ?_
    simp only [SVal.isKey_iff, true_and]
    refine forall₂_congr fun y _ => ?_
    rw [← Bool.not_eq_true, SVal.isKey_iff]
  unfold fieldDe
  constructor
  · intro h
    split at h
    · rename_i kv he
      have hk : kv ∈ l.filter (fun kv => kv.1.isKey name) := by rw [he]; simp
      have hk := SVal.isKey_iff.1 (List.mem_filter.1 hk).2
      obtain ⟨k, x⟩ := kv
      simp only at hk
      subst hk
      exact ⟨x, (key x).1 he, h⟩
    · cases h
  · rintro ⟨x, hx, hu⟩
    rw [(key x).2 hx]
    exact hu

theorem structMap_iff {l l' : List (SVal × SVal)} : structMap (.map l) = some l' ↔ l = l' ∧ StringKeys l := by
  have : (l.all fun kv => kv.1.isStr) = true ↔ StringKeys l := by
    simp only [List.all_eq_true, SVal.isStr_iff, StringKeys]
  unfold structMap
  by_cases h : (l.all fun kv => kv.1.isStr) = true
  · simp only [h, if_true, Option.some.injEq, iff_self_and]
    exact fun _ => this.1 h
  · simp only [h, Bool.false_eq_true, if_false, reduceCtorEq, false_iff, not_and]
    exact fun _ h' => h (this.2 h')

theorem usizeDe_iff [Cfg] {v : SVal} {n : Nat} : usizeDe v = some n ↔ IsUsize v n := by
  unfold IsUsize
  cases v with
  | int k =>
    simp only [usizeDe, SVal.int.injEq]
    split
    · simp only [Option.some.injEq]; omega
    · simp only [reduceCtorEq, false_iff]; omega
  | _ => simp [usizeDe]

theorem vecDe_iff {T : Type} {de : SVal → Option T} {v : SVal} {l : List T} :
    vecDe de v = some l ↔ IsSeqOf (fun v x => de v = some x) v l := by
  unfold IsSeqOf
  cases v with
  | seq vs =>
    simp only [vecDe, SVal.seq.injEq, exists_eq_left']
    induction vs generalizing l with
    | nil => cases l <;> simp [eq_comm]
    | cons v vs ih =>
      simp only [List.mapM_cons, Option.bind_eq_bind, Option.bind_eq_some_iff, List.forall₂_cons_left_iff]
      constructor
      · rintro ⟨a, h1, b, h2, h3⟩
        cases h3
        exact ⟨a, b, h1, ih.1 h2, rfl⟩
      · rintro ⟨a, b, h1, h2, rfl⟩
        exact ⟨a, h1, b, ih.2 h2, rfl⟩
  | _ => simp [vecDe]

theorem get_collect_last {K V : Type} [DecidableEq K] (l : List (K × V)) (k : K) :
    (HMap.collect l).get k = (l.reverse.find? (·.1 = k)).map (·.2) := by
  have key : ∀ m : HMap K V, (l.foldl (fun m kv => m.insert kv.1 kv.2) m).get k = ((l.reverse.find? (·.1 = k)).map (·.2)).or (m.get k) := by
    induction l with
    | nil => intro m; simp
    | cons kv l ih =>
      intro m
      simp only [List.foldl_cons, ih, HMap.get_insert, List.reverse_cons, List.find?_append]
      cases List.find? (fun x => decide (x.1 = k)) l.reverse with
      | some e => simp
      | none =>
        by_cases h : kv.1 = k
        · simp [h]
        · simp [h]
  unfold HMap.collect
  rw [key]
  cases List.find? (fun x => decide (x.1 = k)) l.reverse <;> simp

theorem hmapDe_iff {K V : Type} [DecidableEq K] {deK : SVal → Option K} {deV : SVal → Option V} {v : SVal} {m : HMap K V} :
    hmapDe deK deV v = some m ↔ IsMapOf (fun v x => deK v = some x) (fun v x => deV v = some x) v m := by
  unfold IsMapOf
  cases v with
  | map kvs =>
    simp only [hmapDe, SVal.map.injEq, exists_and_left, exists_eq_left', Option.bind_eq_bind, Option.bind_eq_some_iff]
    have key : ∀ l, (kvs.mapM fun kv => (do let k ← deK kv.1; let v ← deV kv.2; return (k, v) : Option (K × V))) = some l ↔
        List.Forall₂ (fun kv e => deK kv.1 = some e.1 ∧ deV kv.2 = some e.2) kvs l := by
      induction kvs with
      | nil => intro l; cases l <;> simp [eq_comm]
      | cons v vs ih =>
        intro l
        simp only [List.mapM_cons, Option.bind_eq_bind, Option.bind_eq_some_iff, List.forall₂_cons_left_iff]
        simp only [Option.bind_eq_bind] at ih
        constructor
        · rintro ⟨a, ⟨k, h1, w, h2, h3⟩, b, h4, h5⟩
          cases h3; cases h5
          exact ⟨_, b, ⟨h1, h2⟩, (ih b).1 h4, rfl⟩
        · rintro ⟨a, b, ⟨h1, h2⟩, h3, rfl⟩
          exact ⟨a, ⟨a.1, h1, a.2, h2, rfl⟩, b, (ih b).2 h3, rfl⟩
    simp only [Option.bind_eq_bind] at key
    constructor
    · rintro ⟨l, h1, h2⟩
      cases h2
      exact ⟨l, (key l).1 h1, rfl, get_collect_last l⟩
    · rintro ⟨l, h1, rfl, -⟩
      exact ⟨l, (key l).2 h1, rfl⟩
  | _ => simp [hmapDe]

theorem phantomDe_iff {v : SVal} {u : Unit} : phantomDe v = some u ↔ v = .unit := by
  cases v <;> simp [phantomDe]

/-! ## axes -/
section
variable [Cfg] {T : Type} [Serde T]


macro "struct_seq" : tactic => `(tactic| (simp [Serde.de, usizeDe_iff, vecDe_iff, hmapDe_iff, Option.bind_eq_some_iff, structMap, phantomDe] <;> try tauto))
macro "struct_map" : tactic => `(tactic| (simp [Serde.de, usizeDe_iff, vecDe_iff, hmapDe_iff, structMap_iff, fieldDe_iff, Option.bind_eq_some_iff, phantomDe_iff] <;> grind))

/-! C65, axes: a tree is read as an axis exactly if it is a struct with the axis's fields, each of which is accepted. -/

theorem C65_uniform {v : SVal} {a : Uniform T} : Reads v a ↔
    ∃ n lo hi st, IsStruct ["num", "low", "high", "step"] v [n, lo, hi, st] ∧ IsUsize n a.num ∧ Reads lo a.low ∧ Reads hi a.high ∧ Reads st a.step := by
  obtain ⟨num, low, high, step⟩ := a
  unfold Reads IsStruct IsMapStruct
  cases v with
  | seq vs =>
    match vs with
    | [n, lo, hi, st] => struct_seq
    | [] => struct_seq
    | [_] => struct_seq
    | [_, _] => struct_seq
    | [_, _, _] => struct_seq
    | _ :: _ :: _ :: _ :: _ :: _ => struct_seq
  | map l => struct_map
  | _ => struct_seq

/-- the struct has one field -/
macro "struct_one" v:ident : tactic => `(tactic| (
  unfold Reads IsStruct IsMapStruct
  cases $v:ident with
  | seq vs =>
    match vs with
    | [x] => struct_seq
    | [] => struct_seq
    | _ :: _ :: _ => struct_seq
  | map l => struct_map
  | _ => struct_seq))

theorem C65_uniform_noflow {v : SVal} {a : UniformNoFlow T} : Reads v a ↔ ∃ x, IsStruct ["axis"] v [x] ∧ Reads x a.axis := by
  obtain ⟨a⟩ := a
  struct_one v

/-- the fields of the inner axis, in a map (the field is flattened) -/
theorem C65_uniform_cyclic {v : SVal} {a : UniformCyclic T} : Reads v a ↔ (∃ l, v = .map l) ∧ Reads v a.axis := by
  obtain ⟨a⟩ := a
  unfold Reads
  cases v with
  | map l => simp [Serde.de, Option.bind_eq_some_iff]
  | _ => simp [Serde.de]

omit [Cfg] in
theorem C65_variable {v : SVal} {a : Variable T} : Reads v a ↔ ∃ x, IsStruct ["bin_edges"] v [x] ∧ IsSeqOf Reads x a.binEdges := by
  obtain ⟨a⟩ := a
  struct_one v

omit [Cfg] in
theorem C65_variable_noflow {v : SVal} {a : VariableNoFlow T} : Reads v a ↔ ∃ x, IsStruct ["axis"] v [x] ∧ Reads x a.axis := by
  obtain ⟨a⟩ := a
  struct_one v

omit [Cfg] in
theorem C65_variable_cyclic {v : SVal} {a : VariableCyclic T} : Reads v a ↔ (∃ l, v = .map l) ∧ Reads v a.axis := by
  obtain ⟨a⟩ := a
  unfold Reads
  cases v with
  | map l => simp [Serde.de, Option.bind_eq_some_iff]
  | _ => simp [Serde.de]

/-- the struct has two fields -/
macro "struct_two" v:ident : tactic => `(tactic| (
  unfold Reads IsStruct IsMapStruct
  cases $v:ident with
  | seq vs =>
    match vs with
    | [x, y] => struct_seq
    | [] => struct_seq
    | [x] => struct_seq
    | _ :: _ :: _ :: _ => struct_seq
  | map l => struct_map
  | _ => struct_seq))

theorem C65_category [DecidableEq T] {v : SVal} {a : Category T} : Reads v a ↔
    ∃ x y, IsStruct ["map_t_to_index", "map_index_to_t"] v [x, y] ∧ IsMapOf Reads IsUsize x a.mapTToIndex ∧ IsMapOf IsUsize Reads y a.mapIndexToT := by
  obtain ⟨a, b⟩ := a
  struct_two v

theorem C65_category_noflow [DecidableEq T] {v : SVal} {a : CategoryNoFlow T} : Reads v a ↔ ∃ x, IsStruct ["axis"] v [x] ∧ Reads x a.axis := by
  obtain ⟨a⟩ := a
  struct_one v
end

/-! ## tuples of axes -/
section
variable [Cfg]

/-- one axis: `axes` is a sequence of length one -/
theorem C65_axes1 {X : Type} [Serde X] {v : SVal} {a : AxesTuple1 X} : Reads v a ↔
    ∃ x s, IsStruct ["axes", "shape"] v [.seq [x], s] ∧ Reads x a.axis ∧ IsSeqOf IsUsize s a.shape := by
  obtain ⟨a, b⟩ := a
  unfold Reads IsStruct IsMapStruct
  cases v with
  | seq vs =>
    match vs with
    | [.seq [x], y] => struct_seq
    | [.seq [], y] => struct_seq
    | [.seq (_ :: _ :: _), y] => struct_seq
    | [.unit, y] => struct_seq
    | [.int _, y] => struct_seq
    | [.f64 _, y] => struct_seq
    | [.str _, y] => struct_seq
    | [.map _, y] => struct_seq
    | [] => struct_seq
    | [x] => struct_seq
    | _ :: _ :: _ :: _ => struct_seq
  | map l =>
    simp only [Serde.de, Option.bind_eq_bind, Option.bind_eq_some_iff, structMap_iff, fieldDe_iff, vecDe_iff, usizeDe_iff]
    simp
    grind
  | _ => struct_seq

theorem tupDe_iff {ts : List AxTy} [TupSerde ts] {v : SVal} {a : Tup ts} : tupDe v = some a ↔ ∃ x, v = .seq x ∧ TupSerde.de x = some a := by
  cases v <;> simp [tupDe]

/-- several axes: `axes` is a sequence -/
theorem C65_axes {t₀ t₁ : AxTy} {ts : List AxTy} [TupSerde (t₀ :: t₁ :: ts)] {v : SVal} {a : AxesTuple t₀ t₁ ts} : Reads v a ↔
    ∃ x s, IsStruct ["axes", "shape"] v [.seq x, s] ∧ TupSerde.de x = some a.axes ∧ IsSeqOf IsUsize s a.shape := by
  obtain ⟨a, b⟩ := a
  unfold Reads IsStruct IsMapStruct
  cases v with
  | seq vs =>
    match vs with
    | [x, y] =>
      simp [Serde.de, usizeDe_iff, vecDe_iff, Option.bind_eq_some_iff, tupDe_iff]
      grind
    | [] => struct_seq
    | [x] => struct_seq
    | _ :: _ :: _ :: _ => struct_seq
  | map l =>
    simp [Serde.de, usizeDe_iff, vecDe_iff, structMap_iff, fieldDe_iff, Option.bind_eq_some_iff, tupDe_iff]
    grind
  | _ => struct_seq

/-- its elements are as many trees as there are axes, each of which is accepted as the axis at its place -/
theorem C65_tuple : (∀ (vs : List SVal) (a : Tup []), TupSerde.de vs = some a ↔ vs = []) ∧
    ∀ (t : AxTy) (ts : List AxTy) [Serde t.A] [TupSerde ts] (vs : List SVal) (a : Tup (t :: ts)),
      TupSerde.de vs = some a ↔ ∃ v vs', vs = v :: vs' ∧ Reads v a.1 ∧ TupSerde.de vs' = some a.2 := by
  refine ⟨fun vs a => ?_, fun t ts _ _ vs a => ?_⟩
  · cases vs with
    | nil => exact ⟨fun _ => rfl, fun _ => rfl⟩
    | cons => simp [TupSerde.de]
  · cases vs with
    | nil => simp [TupSerde.de]
    | cons v vs =>
      obtain ⟨a1, a2⟩ := a
      have e : (TupSerde.de (v :: vs) : Option (Tup (t :: ts))) = (Serde.de v).bind (fun x => (TupSerde.de vs).bind fun y => some (x, y)) := rfl
      constructor
      · intro h
        rw [e] at h
        obtain ⟨x, h1, h⟩ := Option.bind_eq_some_iff.1 h
        obtain ⟨y, h2, h⟩ := Option.bind_eq_some_iff.1 h
        obtain ⟨rfl, rfl⟩ := Prod.mk.inj (Option.some.inj h)
        exact ⟨v, vs, rfl, h1, h2⟩
      · rintro ⟨v', vs', h0, h1, h2⟩
        cases h0
        rw [e]
        exact Option.bind_eq_some_iff.2 ⟨a1, h1, Option.bind_eq_some_iff.2 ⟨a2, h2, rfl⟩⟩
end

/-! ## bin values -/
section
variable {T W O C : Type} [Serde T] [Serde W] [Serde C]

theorem C65_sum {v : SVal} {a : Sum T} : Reads v a ↔ ∃ x, IsStruct ["sum"] v [x] ∧ Reads x a.sum := by
  obtain ⟨a⟩ := a
  struct_one v

theorem C65_weighted_sum {v : SVal} {a : WeightedSum T} : Reads v a ↔
    ∃ x y, IsStruct ["sumw", "sumw2"] v [x, y] ∧ Reads x a.sumw ∧ Reads y a.sumw2 := by
  obtain ⟨a, b⟩ := a
  struct_two v

theorem C65_mean {v : SVal} {a : Mean T O C} : Reads v a ↔
    ∃ x y c, IsStruct ["sumw", "sumw2", "count", "phantom_output_type"] v [x, y, c, .unit] ∧ Reads x a.sumw ∧ Reads y a.sumw2 ∧ Reads c a.count := by
  obtain ⟨a, b, c⟩ := a
  unfold Reads IsStruct IsMapStruct
  cases v with
  | seq vs =>
    match vs with
    | [_, _, _, p] => cases p <;> struct_seq
    | [] => struct_seq
    | [_] => struct_seq
    | [_, _] => struct_seq
    | [_, _, _] => struct_seq
    | _ :: _ :: _ :: _ :: _ :: _ => struct_seq
  | map l => struct_map
  | _ => struct_seq

theorem C65_weighted_mean {v : SVal} {a : WeightedMean T W O C} : Reads v a ↔
    ∃ x y z w c, IsStruct ["sumwt", "sumwt2", "sumw", "sumw2", "count", "phantom_output_type"] v [x, y, z, w, c, .unit] ∧
      Reads x a.sumwt ∧ Reads y a.sumwt2 ∧ Reads z a.sumw ∧ Reads w a.sumw2 ∧ Reads c a.count := by
  obtain ⟨a, b, c, d, e⟩ := a
  unfold Reads IsStruct IsMapStruct
  cases v with
  | seq vs =>
    match vs with
    | [_, _, _, _, _, p] => cases p <;> struct_seq
    | [] => struct_seq
    | [_] => struct_seq
    | [_, _] => struct_seq
    | [_, _, _] => struct_seq
    | [_, _, _, _] => struct_seq
    | [_, _, _, _, _] => struct_seq
    | _ :: _ :: _ :: _ :: _ :: _ :: _ :: _ => struct_seq
  | map l => struct_map
  | _ => struct_seq
end

/-! ## histograms and items -/
section
variable [Cfg] {A V : Type} [Serde A] [Serde V]

omit [Cfg] in
theorem C65_dense {v : SVal} {h : VecHistogram A V} : Reads v h ↔
    ∃ x y, IsStruct ["axes", "values"] v [x, y] ∧ Reads x h.axes ∧ IsSeqOf Reads y h.values := by
  obtain ⟨a, b⟩ := h
  struct_two v

theorem C65_sparse {v : SVal} {h : HashHistogram A V} : Reads v h ↔
    ∃ x y, IsStruct ["axes", "values"] v [x, y] ∧ Reads x h.axes ∧ IsMapOf IsUsize Reads y h.values := by
  obtain ⟨a, b⟩ := h
  struct_two v

theorem C65_item {v : SVal} {a : Item A V} : Reads v a ↔
    ∃ i x y, IsStruct ["index", "bin", "value"] v [i, x, y] ∧ IsUsize i a.index ∧ Reads x a.bin ∧ Reads y a.value := by
  obtain ⟨i, b, w⟩ := a
  unfold Reads IsStruct IsMapStruct
  cases v with
  | seq vs =>
    match vs with
    | [_, _, _] => struct_seq
    | [] => struct_seq
    | [_] => struct_seq
    | [_, _] => struct_seq
    | _ :: _ :: _ :: _ :: _ => struct_seq
  | map l => struct_map
  | _ => struct_seq
end

/-! ## numbers and strings -/

/-- an integer is read from a number that fits -/
theorem C65_int {τ : IntTy} {v : SVal} {a : MInt τ} : Reads v a ↔ v = .int a.val := by
  unfold Reads
  cases v with
  | int n =>
    simp only [Serde.de, MInt.ofInt?, SVal.int.injEq]
    split
    · simp [MInt.ext_iff]
    · rename_i h
      simp only [reduceCtorEq, false_iff]
      rintro rfl
      exact h ⟨a.min_le, a.le_max⟩
  | _ => simp [Serde.de]
theorem C65_string {v : SVal} {a : String} : Reads v a ↔ v = .str a := by
  unfold Reads
  cases v <;> simp [Serde.de]
/-- a float is read from a float, or from an integer, which is rounded -/
theorem C65_f64 {v : SVal} {a : F64} : Reads v a ↔ v = .f64 a ∨ ∃ n : Int, v = .int n ∧ a = Flt.ofRat n := by
  unfold Reads
  cases v <;> simp [Serde.de, eq_comm]
end NdHist
