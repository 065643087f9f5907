import Verif.Model.Serde
import Verif.Props.AxisEq
import Verif.Props.Access
/-!
# C46, C50: serialization
-/
set_option linter.unusedSectionVars false
namespace NdHist
open POrd RNum

/-! ## Specification -/

/-- Plain data: it can be written, and whatever is written is read back as the very same value. -/
def RoundTrips (T : Type) [Serde T] : Prop := ∀ x : T, (∃ v, Serde.ser x v) ∧ ∀ v, Serde.ser x v → Serde.de v = some x

/-- Two axes no caller can tell apart: every method returns the same, and so does `==` against any other axis. -/
structure Indist [Cfg] {A : Type} [Axis A] [PEq A] (a b : A) : Prop where
  numBins : Axis.numBins a = Axis.numBins b
  index : ∀ c, Axis.index a c = Axis.index b c
  bin : ∀ i, Axis.bin a i = Axis.bin b i
  numDim : Axis.numDim a = Axis.numDim b
  eqL : ∀ x, PEq.peq a x = PEq.peq b x
  eqR : ∀ x, PEq.peq x a = PEq.peq x b

/-- The axis can be written, and whatever is written is read back as an axis no caller can tell apart from it. -/
def AxisRoundTrips [Cfg] {A : Type} [Axis A] [PEq A] [Serde A] (a : A) : Prop :=
  (∃ v, Serde.ser a v) ∧ ∀ v, Serde.ser a v → ∃ b, Serde.de v = some b ∧ Indist a b

/-! ## Containers -/
section
variable [cfg : Cfg]

theorem usize_round {n : Nat} (hn : n < usizeSize) {v : SVal} (h : usizeSer n v) : usizeDe v = some n := by
  rw [h]
  simp [usizeDe, hn]

omit cfg in
theorem vec_total {T : Type} {ser : T → SVal → Prop} (l : List T) (h : ∀ x ∈ l, ∃ v, ser x v) : ∃ v, vecSer ser l v := by
  have : ∃ vs, List.Forall₂ ser l vs := by
    induction l with
    | nil => exact ⟨[], .nil⟩
    | cons x l ih =>
      obtain ⟨v, hv⟩ := h x (by simp)
      obtain ⟨vs, hvs⟩ := ih (fun y hy => h y (by simp [hy]))
      exact ⟨v :: vs, .cons hv hvs⟩
  obtain ⟨vs, hvs⟩ := this
  exact ⟨_, vs, hvs, rfl⟩

omit cfg in
theorem mapM_some {α β : Type} (de : α → Option β) {R : β → α → Prop} {l : List β} {vs : List α} (h : List.Forall₂ R l vs)
    (hr : ∀ x ∈ l, ∀ v, R x v → de v = some x) : vs.mapM de = some l := by
  induction h with
  | nil => rfl
  | cons hxv _ ih =>
    rw [List.mapM_cons, hr _ (by simp) _ hxv, ih (fun y hy => hr y (by simp [hy]))]
    rfl

omit cfg in
theorem vec_round {T : Type} {ser : T → SVal → Prop} {de : SVal → Option T} {l : List T} (hr : ∀ x ∈ l, ∀ v, ser x v → de v = some x) {v : SVal}
    (h : vecSer ser l v) : vecDe de v = some l := by
  obtain ⟨vs, hvs, rfl⟩ := h
  exact mapM_some de hvs hr

omit cfg in
theorem hmap_total {K V : Type} {serK : K → SVal → Prop} {serV : V → SVal → Prop} (m : HMap K V) (hk : ∀ e ∈ m.entries, ∃ v, serK e.1 v)
    (hv : ∀ e ∈ m.entries, ∃ v, serV e.2 v) : ∃ v, hmapSer serK serV m v := by
  have : ∀ l : List (K × V), (∀ e ∈ l, ∃ v, serK e.1 v) → (∀ e ∈ l, ∃ v, serV e.2 v) →
      ∃ kvs : List (SVal × SVal), List.Forall₂ (fun e kv => serK e.1 kv.1 ∧ serV e.2 kv.2) l kvs := by
    intro l h1 h2
    induction l with
    | nil => exact ⟨[], .nil⟩
    | cons e l ih =>
      obtain ⟨a, ha⟩ := h1 e (by simp)
      obtain ⟨b, hb⟩ := h2 e (by simp)
      obtain ⟨vs, hvs⟩ := ih (fun y hy => h1 y (by simp [hy])) (fun y hy => h2 y (by simp [hy]))
      exact ⟨(a, b) :: vs, .cons ⟨ha, hb⟩ hvs⟩
  obtain ⟨kvs, h⟩ := this m.entries hk hv
  exact ⟨_, ⟨m.entries, .refl _⟩, kvs, h, rfl⟩

omit cfg in
theorem hmap_round {K V : Type} [DecidableEq K] {serK : K → SVal → Prop} {serV : V → SVal → Prop} {deK : SVal → Option K} {deV : SVal → Option V}
    {m : HMap K V} (hn : m.NodupKeys) (hk : ∀ e ∈ m.entries, ∀ v, serK e.1 v → deK v = some e.1)
    (hv : ∀ e ∈ m.entries, ∀ v, serV e.2 v → deV v = some e.2) {v : SVal} (h : hmapSer serK serV m v) :
    ∃ m', hmapDe deK deV v = some m' ∧ m'.NodupKeys ∧ ∀ k, m'.get k = m.get k := by
  obtain ⟨o, kvs, hf, rfl⟩ := h
  have hm : kvs.mapM (fun kv => (do
      let k ← deK kv.1
      let v ← deV kv.2
      return (k, v) : Option (K × V))) = some o.list := by
    refine mapM_some _ hf ?_
    intro e he kv hkv
    have he' := o.perm.subset he
    rw [hk e he' _ hkv.1, hv e he' _ hkv.2]
    rfl
  refine ⟨HMap.collect o.list, ?_, HMap.nodup_collect _, ?_⟩
  · show (do let l ← kvs.mapM _; return HMap.collect l : Option (HMap K V)) = _
    rw [hm]; rfl
  · intro k
    have hn' : (o.list.map (·.1)).Nodup := (o.perm.map _).nodup_iff.mpr hn
    rw [HMap.get_collect _ hn', HMap.find_perm o.perm hn']
    rfl

/-! ## Bin values -/
section
variable {T W O C : Type} [Serde T] [Serde W] [Serde C]

/-- C46: numbers and strings -/
theorem C46_int (τ : IntTy) : RoundTrips (MInt τ) := by
  intro x
  refine ⟨⟨_, rfl⟩, fun v h => ?_⟩
  rw [show v = .int x.val from h]
  show MInt.ofInt? x.val = _
  simp [MInt.ofInt?, x.min_le, x.le_max]

theorem C46_f64 : RoundTrips F64 := fun x => ⟨⟨_, rfl⟩, fun v h => by rw [show v = .f64 x from h]; rfl⟩
theorem C46_string : RoundTrips String := fun x => ⟨⟨_, rfl⟩, fun v h => by rw [show v = .str x from h]; rfl⟩

/-- C46: `Sum` -/
theorem C46_sum (hT : RoundTrips T) : RoundTrips (Sum T) := by
  rintro ⟨s⟩
  obtain ⟨⟨v, hv⟩, h⟩ := hT s
  refine ⟨⟨_, v, hv, rfl⟩, ?_⟩
  rintro _ ⟨x, hx, rfl⟩
  simp [Serde.de, structMap, fieldDe, SVal.isKey, SVal.isStr, h x hx]

/-- C46: `WeightedSum` -/
theorem C46_weighted_sum (hT : RoundTrips T) : RoundTrips (WeightedSum T) := by
  rintro ⟨s, t⟩
  obtain ⟨⟨v, hv⟩, h⟩ := hT s
  obtain ⟨⟨w, hw⟩, h'⟩ := hT t
  refine ⟨⟨_, v, w, hv, hw, rfl⟩, ?_⟩
  rintro _ ⟨x, y, hx, hy, rfl⟩
  simp [Serde.de, structMap, fieldDe, SVal.isKey, SVal.isStr, h x hx, h' y hy]

/-- C46: `Mean` -/
theorem C46_mean (hT : RoundTrips T) (hC : RoundTrips C) : RoundTrips (Mean T O C) := by
  rintro ⟨s, t, c⟩
  obtain ⟨⟨v, hv⟩, h⟩ := hT s
  obtain ⟨⟨w, hw⟩, h'⟩ := hT t
  obtain ⟨⟨u, hu⟩, h''⟩ := hC c
  refine ⟨⟨_, v, w, u, _, hv, hw, hu, rfl, rfl⟩, ?_⟩
  rintro _ ⟨x, y, z, p, hx, hy, hz, rfl, rfl⟩
  simp [Serde.de, structMap, fieldDe, SVal.isKey, SVal.isStr, h x hx, h' y hy, h'' z hz, phantomDe]

/-- C46: `WeightedMean` -/
theorem C46_weighted_mean (hT : RoundTrips T) (hW : RoundTrips W) (hC : RoundTrips C) : RoundTrips (WeightedMean T W O C) := by
  rintro ⟨s, t, a, b, c⟩
  obtain ⟨⟨v, hv⟩, h⟩ := hT s
  obtain ⟨⟨w, hw⟩, h'⟩ := hT t
  obtain ⟨⟨va, hva⟩, ha⟩ := hW a
  obtain ⟨⟨vb, hvb⟩, hb⟩ := hW b
  obtain ⟨⟨u, hu⟩, h''⟩ := hC c
  refine ⟨⟨_, v, w, va, vb, u, _, hv, hw, hva, hvb, hu, rfl, rfl⟩, ?_⟩
  rintro _ ⟨x, y, xa, xb, z, p, hx, hy, hxa, hxb, hz, rfl, rfl⟩
  simp [Serde.de, structMap, fieldDe, SVal.isKey, SVal.isStr, h x hx, h' y hy, ha xa hxa, hb xb hxb, h'' z hz, phantomDe]

/-- C46: error values -/
theorem C46_errors : RoundTrips Error ∧ RoundTrips AxisError ∧ RoundTrips BinaryOperationError := by
  have h2 : RoundTrips AxisError := fun x => ⟨⟨_, rfl⟩, fun v h => by rw [show v = .str x.name from h]; cases x <;> decide⟩
  have h3 : RoundTrips BinaryOperationError := fun x => ⟨⟨_, rfl⟩, fun v h => by rw [show v = .unit from h]; rfl⟩
  refine ⟨?_, h2, h3⟩
  rintro (e | e)
  · refine ⟨⟨_, _, rfl, rfl⟩, ?_⟩
    rintro _ ⟨x, hx, rfl⟩
    show Option.map Error.BinaryOperationError (Serde.de x) = _
    rw [(h3 e).2 x hx]; rfl
  · refine ⟨⟨_, _, rfl, rfl⟩, ?_⟩
    rintro _ ⟨x, hx, rfl⟩
    show Option.map Error.AxisError (Serde.de x) = _
    rw [(h2 e).2 x hx]; rfl

end

/-! ## Axes -/
section
variable {T : Type} [Serde T]

/-- C46: uniform axes are read back unchanged. -/
theorem C46_uniform (hT : RoundTrips T) (a : Uniform T) (hn : a.num < usizeSize) :
    (∃ v, Serde.ser a v) ∧ ∀ v, Serde.ser a v → Serde.de v = some a := by
  obtain ⟨n, lo, hi, st⟩ := a
  obtain ⟨⟨v1, s1⟩, h1⟩ := hT lo
  obtain ⟨⟨v2, s2⟩, h2⟩ := hT hi
  obtain ⟨⟨v3, s3⟩, h3⟩ := hT st
  refine ⟨⟨_, _, _, _, _, rfl, s1, s2, s3, rfl⟩, ?_⟩
  rintro _ ⟨vn, x1, x2, x3, hvn, g1, g2, g3, rfl⟩
  simp [Serde.de, structMap, fieldDe, SVal.isKey, SVal.isStr, h1 x1 g1, h2 x2 g2, h3 x3 g3, usize_round hn hvn]

theorem C46_uniform_noflow (hT : RoundTrips T) (a : UniformNoFlow T) (hn : a.axis.num < usizeSize) :
    (∃ v, Serde.ser a v) ∧ ∀ v, Serde.ser a v → Serde.de v = some a := by
  obtain ⟨⟨v, hv⟩, h⟩ := C46_uniform hT a.axis hn
  refine ⟨⟨_, v, hv, rfl⟩, ?_⟩
  rintro _ ⟨x, hx, rfl⟩
  have := h x hx
  show (do let l ← structMap (.map [(.str "axis", x)]); return ⟨← fieldDe "axis" Serde.de l⟩ : Option (UniformNoFlow T)) = _
  simp [structMap, fieldDe, SVal.isKey, SVal.isStr, this]

/-- C46: the flattened cyclic axis -/
theorem C46_uniform_cyclic (hT : RoundTrips T) (a : UniformCyclic T) (hn : a.axis.axis.num < usizeSize) :
    (∃ v, Serde.ser a v) ∧ ∀ v, Serde.ser a v → Serde.de v = some a := by
  obtain ⟨⟨v, hv⟩, h⟩ := C46_uniform_noflow hT a.axis hn
  refine ⟨⟨v, hv⟩, ?_⟩
  rintro v' hv'
  have h2 := h v' hv'
  obtain ⟨x, hx, rfl⟩ := hv'
  show (do return ⟨← Serde.de (.map [(.str "axis", x)])⟩ : Option (UniformCyclic T)) = _
  rw [h2]; rfl

/-- C46: variable axes are read back unchanged. -/
theorem C46_variable (hT : RoundTrips T) : RoundTrips (Variable T) := by
  rintro ⟨e⟩
  obtain ⟨v, hv⟩ := vec_total e (fun x _ => (hT x).1)
  refine ⟨⟨_, v, hv, rfl⟩, ?_⟩
  rintro _ ⟨x, hx, rfl⟩
  have := vec_round (fun y _ => (hT y).2) hx
  show (do let l ← structMap (.map [(.str "bin_edges", x)]); return ⟨← fieldDe "bin_edges" (vecDe Serde.de) l⟩ : Option (Variable T)) = _
  simp [structMap, fieldDe, SVal.isKey, SVal.isStr, this]

theorem C46_variable_noflow (hT : RoundTrips T) : RoundTrips (VariableNoFlow T) := by
  rintro ⟨a⟩
  obtain ⟨⟨v, hv⟩, h⟩ := C46_variable hT a
  refine ⟨⟨_, v, hv, rfl⟩, ?_⟩
  rintro _ ⟨x, hx, rfl⟩
  have := h x hx
  show (do let l ← structMap (.map [(.str "axis", x)]); return ⟨← fieldDe "axis" Serde.de l⟩ : Option (VariableNoFlow T)) = _
  simp [structMap, fieldDe, SVal.isKey, SVal.isStr, this]

theorem C46_variable_cyclic (hT : RoundTrips T) : RoundTrips (VariableCyclic T) := by
  rintro ⟨a⟩
  obtain ⟨⟨v, hv⟩, h⟩ := C46_variable_noflow hT a
  refine ⟨⟨v, hv⟩, ?_⟩
  rintro v' hv'
  have h2 := h v' hv'
  obtain ⟨x, hx, rfl⟩ := hv'
  show (do return ⟨← Serde.de (.map [(.str "axis", x)])⟩ : Option (VariableCyclic T)) = _
  rw [h2]; rfl


/-! ### Categories -/

omit [Serde T] in
/-- `==` of maps does not depend on the order of the entries -/
theorem HMap.beq_congr {K V : Type} [DecidableEq K] (eqV : V → V → Bool) {m m' : HMap K V} (hn : m.NodupKeys) (hn' : m'.NodupKeys)
    (h : ∀ k, m'.get k = m.get k) : (∀ x, HMap.beq eqV m x = HMap.beq eqV m' x) ∧ ∀ x, HMap.beq eqV x m = HMap.beq eqV x m' := by
  have hp := HMap.perm_of_get_eq hn hn' (fun k => (h k).symm)
  have hl : m.len = m'.len := hp.length_eq
  constructor
  · intro x
    unfold HMap.beq
    rw [hl, hp.all_eq]
  · intro x
    unfold HMap.beq
    rw [hl]
    simp only [h]

/-- two category axes with the same lookups -/
theorem category_indist [DecidableEq T] {a b : Category T} (ha1 : a.mapTToIndex.NodupKeys) (ha2 : a.mapIndexToT.NodupKeys)
    (hb1 : b.mapTToIndex.NodupKeys) (hb2 : b.mapIndexToT.NodupKeys) (h1 : ∀ k, b.mapTToIndex.get k = a.mapTToIndex.get k)
    (h2 : ∀ k, b.mapIndexToT.get k = a.mapIndexToT.get k) :
    Indist a b ∧ Indist (CategoryNoFlow.mk a) (CategoryNoFlow.mk b) := by
  have hl : a.len = b.len := (HMap.perm_of_get_eq ha2 hb2 (fun k => (h2 k).symm)).length_eq
  have e1 : a.numBins = b.numBins := by unfold Category.numBins; rw [hl]
  have e2 : ∀ c, a.index c = b.index c := by
    intro c
    unfold Category.index Category.getIndex
    rw [hl, h1]
  have e3 : ∀ i, a.bin i = b.bin i := by
    intro i
    unfold Category.bin Category.getValue
    rw [hl, h2]
  have q1 := HMap.beq_congr (fun i j => decide (i = j)) ha1 hb1 h1
  have q2 := HMap.beq_congr (fun x y => decide (x = y)) ha2 hb2 h2
  have e4 : ∀ x, PEq.peq a x = PEq.peq b x := by
    intro x
    show (_ && _) = (_ && _)
    rw [q1.1, q2.1]
  have e5 : ∀ x, PEq.peq x a = PEq.peq x b := by
    intro x
    show (_ && _) = (_ && _)
    rw [q1.2, q2.2]
  refine ⟨⟨e1, e2, e3, rfl, e4, e5⟩, ?_, ?_, ?_, rfl, fun x => e4 x.axis, fun x => e5 x.axis⟩
  · show CategoryNoFlow.numBins _ = CategoryNoFlow.numBins _
    unfold CategoryNoFlow.numBins; rw [e1]
  · intro c
    show CategoryNoFlow.index _ _ = CategoryNoFlow.index _ _
    unfold CategoryNoFlow.index; rw [e1, e2]
  · intro c
    show CategoryNoFlow.bin _ _ = CategoryNoFlow.bin _ _
    unfold CategoryNoFlow.bin; rw [e3]

/-- C46: category axes are read back as axes that no caller can tell apart from the original, whatever the order in which the maps were written. -/
theorem C46_category [DecidableEq T] (hT : RoundTrips T) (values : List T) (hmem : values.length < usizeSize) :
    AxisRoundTrips (Category.new values) ∧ AxisRoundTrips (CategoryNoFlow.new values) := by
  obtain ⟨hn1, hn2⟩ := Category.new_nodup values
  obtain ⟨hlen, hval, hidx⟩ := Category.new_spec values
  have fit1 : ∀ e ∈ (Category.new values).mapTToIndex.entries, e.2 < usizeSize := by
    intro e he
    have := ((hidx e.1 e.2).1 ((HMap.mem_entries_iff hn1 e.1 e.2).1 he)).1
    obtain ⟨h, _⟩ := List.getElem?_eq_some_iff.1 this
    omega
  have fit2 : ∀ e ∈ (Category.new values).mapIndexToT.entries, e.1 < usizeSize := by
    intro e he
    have := (HMap.mem_entries_iff hn2 e.1 e.2).1 he
    have := (hval e.1).symm.trans this
    obtain ⟨h, _⟩ := List.getElem?_eq_some_iff.1 this
    omega
  show AxisRoundTrips (Category.new values) ∧ AxisRoundTrips (CategoryNoFlow.mk (Category.new values))
  generalize Category.new values = a at *
  obtain ⟨v1, s1⟩ := hmap_total (serK := Serde.ser) (serV := usizeSer) a.mapTToIndex (fun e _ => (hT e.1).1) (fun e _ => ⟨_, rfl⟩)
  obtain ⟨v2, s2⟩ := hmap_total (serK := usizeSer) (serV := Serde.ser) a.mapIndexToT (fun e _ => ⟨_, rfl⟩) (fun e _ => (hT e.2).1)
  have tot : Serde.ser a (.map [(.str "map_t_to_index", v1), (.str "map_index_to_t", v2)]) := ⟨v1, v2, s1, s2, rfl⟩
  have rnd : ∀ v, Serde.ser a v → ∃ b, Serde.de v = some b ∧ Indist a b ∧ Indist (CategoryNoFlow.mk a) (CategoryNoFlow.mk b) := by
    rintro _ ⟨x, y, hx, hy, rfl⟩
    obtain ⟨m1, d1, k1, g1⟩ := hmap_round (deK := Serde.de) (deV := usizeDe) hn1 (fun e _ => (hT e.1).2) (fun e he v hv => usize_round (fit1 e he) hv) hx
    obtain ⟨m2, d2, k2, g2⟩ := hmap_round (deK := usizeDe) (deV := Serde.de) hn2 (fun e he v hv => usize_round (fit2 e he) hv) (fun e _ => (hT e.2).2) hy
    refine ⟨⟨m1, m2⟩, ?_, category_indist hn1 hn2 k1 k2 g1 g2⟩
    show (do
      let l ← structMap (.map [(.str "map_t_to_index", x), (.str "map_index_to_t", y)])
      return ⟨← fieldDe "map_t_to_index" (hmapDe Serde.de usizeDe) l, ← fieldDe "map_index_to_t" (hmapDe usizeDe Serde.de) l⟩ : Option (Category T)) = _
    simp [structMap, fieldDe, SVal.isKey, SVal.isStr, d1, d2]
  refine ⟨⟨⟨_, tot⟩, fun v hv => ?_⟩, ⟨_, _, tot, rfl⟩, ?_⟩
  · obtain ⟨b, h1, h2, _⟩ := rnd v hv
    exact ⟨b, h1, h2⟩
  · rintro _ ⟨x, hx, rfl⟩
    obtain ⟨b, h1, _, h3⟩ := rnd x hx
    refine ⟨⟨b⟩, ?_, h3⟩
    show (do let l ← structMap (.map [(.str "axis", x)]); return ⟨← fieldDe "axis" Serde.de l⟩ : Option (CategoryNoFlow T)) = _
    simp [structMap, fieldDe, SVal.isKey, SVal.isStr, h1]

end

/-! ## Tuples -/

/-- axes that are read back unchanged -/
theorem axisRoundTrips_of_exact {A : Type} [Axis A] [PEq A] [Serde A] {a : A} (h : (∃ v, Serde.ser a v) ∧ ∀ v, Serde.ser a v → Serde.de v = some a) :
    AxisRoundTrips a :=
  ⟨h.1, fun v hv => ⟨a, h.2 v hv, rfl, fun _ => rfl, fun _ => rfl, rfl, fun _ => rfl, fun _ => rfl⟩⟩

/-- two tuples whose axes cannot be told apart -/
structure TupIndist {ts : List AxTy} [TupPEq ts] (a b : Tup ts) : Prop where
  numBins : a.numBinsList = b.numBinsList
  indices : ∀ c, a.indices c = b.indices c
  bins : ∀ i, a.bins i = b.bins i
  eqL : ∀ x, TupPEq.peq a x = TupPEq.peq b x
  eqR : ∀ x, TupPEq.peq x a = TupPEq.peq x b

/-- `each a`: every axis of the tuple `a` round-trips -/
class TupRoundTrips (ts : List AxTy) [TupPEq ts] [TupSerde ts] where
  each : Tup ts → Prop
  round : ∀ a, each a → (∃ v, TupSerde.ser a v) ∧ ∀ v, TupSerde.ser a v → ∃ b, TupSerde.de v = some b ∧ TupIndist a b

instance : TupRoundTrips [] where
  each _ := True
  round a _ := ⟨⟨[], rfl⟩, fun v hv => ⟨(), by rw [show v = [] from hv]; rfl, rfl, fun _ => rfl, fun _ => rfl, fun _ => rfl, fun _ => rfl⟩⟩

instance {t : AxTy} {ts : List AxTy} [PEq t.A] [TupPEq ts] [Serde t.A] [TupSerde ts] [TupRoundTrips ts] : TupRoundTrips (t :: ts) where
  each a := AxisRoundTrips a.1 ∧ TupRoundTrips.each a.2
  round := by
    rintro ⟨a, as⟩ ⟨⟨⟨v, hv⟩, h1⟩, h2⟩
    obtain ⟨⟨vs, hvs⟩, h2⟩ := TupRoundTrips.round as h2
    refine ⟨⟨v :: vs, v, vs, hv, hvs, rfl⟩, ?_⟩
    rintro _ ⟨x, xs, hx, hxs, rfl⟩
    obtain ⟨b, d1, i1⟩ := h1 x hx
    obtain ⟨bs, d2, i2⟩ := h2 xs hxs
    refine ⟨(b, bs), ?_, ?_, ?_, ?_, ?_, ?_⟩
    · show (do return (← Serde.de x, ← TupSerde.de xs) : Option (Tup (t :: ts))) = _
      rw [d1, d2]; rfl
    · show (do let n ← Axis.numBins a; let ns ← as.numBinsList; return n :: ns : Res _) = (do let n ← Axis.numBins b; let ns ← bs.numBinsList; return n :: ns)
      rw [i1.numBins, i2.numBins]
    · rintro ⟨c, cs⟩
      simp only [Tup.indices]
      rw [i1.index]
      simp only [i2.indices]
    · intro is
      cases is with
      | nil => rfl
      | cons i is =>
        simp only [Tup.bins]
        rw [i1.bin]
        simp only [i2.bins]
    · intro x
      show (PEq.peq a x.1 && TupPEq.peq as x.2) = (PEq.peq b x.1 && TupPEq.peq bs x.2)
      rw [i1.eqL, i2.eqL]
    · intro x
      show (PEq.peq x.1 a && TupPEq.peq x.2 as) = (PEq.peq x.1 b && TupPEq.peq x.2 bs)
      rw [i1.eqR, i2.eqR]

theorem shape_round {shape : List Nat} (hs : ∀ n ∈ shape, n < usizeSize) :
    (∃ v, vecSer usizeSer shape v) ∧ ∀ v, vecSer usizeSer shape v → vecDe usizeDe v = some shape :=
  ⟨vec_total _ (fun _ _ => ⟨_, rfl⟩), fun _ hv => vec_round (fun x hx _ h => usize_round (hs x hx) h) hv⟩

/-- C46: one axis in a tuple -/
theorem C46_tuple1 {X : Type} [Axis X] [PEq X] [Serde X] (a : AxesTuple1 X) (ha : AxisRoundTrips a.axis) (hs : ∀ n ∈ a.shape, n < usizeSize) :
    AxisRoundTrips a := by
  obtain ⟨a, shape⟩ := a
  obtain ⟨⟨v, hv⟩, h1⟩ := ha
  obtain ⟨⟨w, hw⟩, h2⟩ := shape_round hs
  refine ⟨⟨_, v, w, hv, hw, rfl⟩, ?_⟩
  rintro _ ⟨x, s, hx, hs', rfl⟩
  obtain ⟨b, d, i⟩ := h1 x hx
  refine ⟨⟨b, shape⟩, ?_, i.numBins, i.index, i.bin, rfl, ?_, ?_⟩
  · show (do
      let l ← structMap (.map [(.str "axes", .seq [x]), (.str "shape", s)])
      return ⟨← fieldDe "axes" (fun | .seq [x] => Serde.de x | _ => none) l, ← fieldDe "shape" (vecDe usizeDe) l⟩ : Option (AxesTuple1 X)) = _
    simp [structMap, fieldDe, SVal.isKey, SVal.isStr, d, h2 s hs']
  · intro y
    show (PEq.peq a y.axis && _) = (PEq.peq b y.axis && _)
    rw [i.eqL]
  · intro y
    show (PEq.peq y.axis a && _) = (PEq.peq y.axis b && _)
    rw [i.eqR]

/-- C46: tuples of any number of axes, each of which round-trips -/
theorem C46_tuple {t₀ t₁ : AxTy} {ts : List AxTy} [TupPEq (t₀ :: t₁ :: ts)] [TupSerde (t₀ :: t₁ :: ts)] [TupRoundTrips (t₀ :: t₁ :: ts)]
    (a : AxesTuple t₀ t₁ ts) (ha : TupRoundTrips.each a.axes) (hs : ∀ n ∈ a.shape, n < usizeSize) : AxisRoundTrips a := by
  obtain ⟨a, shape⟩ := a
  obtain ⟨⟨v, hv⟩, h1⟩ := TupRoundTrips.round a ha
  obtain ⟨⟨w, hw⟩, h2⟩ := shape_round hs
  refine ⟨⟨_, v, w, hv, hw, rfl⟩, ?_⟩
  rintro _ ⟨x, s, hx, hs', rfl⟩
  obtain ⟨b, d, i⟩ := h1 x hx
  refine ⟨⟨b, shape⟩, ?_, ?_, ?_, ?_, rfl, ?_, ?_⟩
  · show (do
      let l ← structMap (.map [(.str "axes", .seq x), (.str "shape", s)])
      return ⟨← fieldDe "axes" tupDe l, ← fieldDe "shape" (vecDe usizeDe) l⟩ : Option (AxesTuple t₀ t₁ ts)) = _
    simp [structMap, fieldDe, SVal.isKey, SVal.isStr, tupDe, d, h2 s hs']
  · show AxesTuple.numBins _ = AxesTuple.numBins _
    unfold AxesTuple.numBins
    rw [show (AxesTuple.mk a shape).axes.numBinsList = (AxesTuple.mk b shape).axes.numBinsList from i.numBins]
  · intro c
    show AxesTuple.index _ _ = AxesTuple.index _ _
    unfold AxesTuple.index
    rw [show (AxesTuple.mk a shape).axes.indices c = (AxesTuple.mk b shape).axes.indices c from i.indices c]
  · intro k
    show AxesTuple.bin _ _ = AxesTuple.bin _ _
    unfold AxesTuple.bin
    rw [show (AxesTuple.mk a shape).axes.numBinsList = (AxesTuple.mk b shape).axes.numBinsList from i.numBins]
    simp only [show ∀ is, (AxesTuple.mk a shape).axes.bins is = (AxesTuple.mk b shape).axes.bins is from i.bins]
  · intro y
    show (TupPEq.peq a y.axes && _) = (TupPEq.peq b y.axes && _)
    rw [i.eqL]
  · intro y
    show (TupPEq.peq y.axes a && _) = (TupPEq.peq y.axes b && _)
    rw [i.eqR]

/-! ## Histograms -/
section
variable {A V : Type} [Axis A] [PEq A] [Serde A] [Serde V]

theorem Indist.lawful {a b : A} (h : Indist a b) {n : Nat} (hl : LawfulAxis a n) : LawfulAxis b n :=
  ⟨by rw [← h.numBins]; exact hl.numBins, hl.fits, fun c i hi => hl.index_lt c i (by rw [h.index]; exact hi),
    fun i hi => by rw [← h.bin]; exact hl.bin_some i hi⟩

/-- C46: a dense histogram is read back with axes that cannot be told apart from its own and the very same values; it is again in order, every lookup gives the
same, and it is equal to the original whenever the original is equal to itself (no NaN). -/
theorem C46_vec_histogram (hV : RoundTrips V) (h : VecHistogram A V) (hA : AxisRoundTrips h.axes) :
    (∃ v, Serde.ser h v) ∧ ∀ v, Serde.ser h v → ∃ h', Serde.de v = some h' ∧ Indist h.axes h'.axes ∧ h'.values = h.values ∧
      (∀ n, h.Ok n → h'.Ok n) ∧ (∀ c, h'.value c = h.value c) ∧ ∀ [PEq V], h.beq h' = h.beq h := by
  obtain ⟨⟨v, hv⟩, h1⟩ := hA
  obtain ⟨w, hw⟩ := vec_total (ser := Serde.ser) h.values (fun x _ => (hV x).1)
  refine ⟨⟨_, v, w, hv, hw, rfl⟩, ?_⟩
  rintro _ ⟨x, y, hx, hy, rfl⟩
  obtain ⟨b, d, i⟩ := h1 x hx
  have d2 := vec_round (de := Serde.de) (fun z _ => (hV z).2) hy
  refine ⟨⟨b, h.values⟩, ?_, i, rfl, fun n ok => ⟨i.lawful ok.lawful, ok.size⟩, ?_, ?_⟩
  · show (do
      let l ← structMap (.map [(.str "axes", x), (.str "values", y)])
      return ⟨← fieldDe "axes" Serde.de l, ← fieldDe "values" (vecDe Serde.de) l⟩ : Option (VecHistogram A V)) = _
    simp [structMap, fieldDe, SVal.isKey, SVal.isStr, d, d2]
  · intro c
    unfold VecHistogram.value
    simp only [i.index]
  · intro _
    unfold VecHistogram.beq
    rw [i.eqR]

/-- C46: a sparse histogram is read back with axes that cannot be told apart from its own and the same value in every bin, whatever the order in which
the map was written. -/
theorem C46_hash_histogram (hV : RoundTrips V) (h : HashHistogram A V) {n : Nat} (ok : h.Ok n) (hA : AxisRoundTrips h.axes) :
    (∃ v, Serde.ser h v) ∧ ∀ v, Serde.ser h v → ∃ h', Serde.de v = some h' ∧ Indist h.axes h'.axes ∧ (∀ i, h'.valueAtIndex i = h.valueAtIndex i) ∧
      h'.Ok n ∧ (∀ c, h'.value c = h.value c) ∧ ∀ [PEq V], h.beq h' = h.beq h := by
  obtain ⟨⟨v, hv⟩, h1⟩ := hA
  have fit : ∀ e ∈ h.values.entries, e.1 < usizeSize := fun e he => lt_trans (ok.valid e.1 (List.mem_map_of_mem he)) ok.lawful.fits
  obtain ⟨w, hw⟩ := hmap_total (serK := usizeSer) (serV := Serde.ser) h.values (fun _ _ => ⟨_, rfl⟩) (fun e _ => (hV e.2).1)
  refine ⟨⟨_, v, w, hv, hw, rfl⟩, ?_⟩
  rintro _ ⟨x, y, hx, hy, rfl⟩
  obtain ⟨b, d, i⟩ := h1 x hx
  obtain ⟨m, d2, k, g⟩ := hmap_round (deK := usizeDe) (deV := Serde.de) ok.nodup (fun e he _ hv => usize_round (fit e he) hv) (fun e _ => (hV e.2).2) hy
  refine ⟨⟨b, m⟩, ?_, i, g, ⟨i.lawful ok.lawful, k, ?_⟩, ?_, ?_⟩
  · show (do
      let l ← structMap (.map [(.str "axes", x), (.str "values", y)])
      return ⟨← fieldDe "axes" Serde.de l, ← fieldDe "values" (hmapDe usizeDe Serde.de) l⟩ : Option (HashHistogram A V)) = _
    simp [structMap, fieldDe, SVal.isKey, SVal.isStr, d, d2]
  · intro j hj
    obtain ⟨z, hz⟩ := (HMap.get_isSome _ _).2 hj
    exact ok.valid j ((HMap.get_isSome _ _).1 ⟨z, (g j).symm.trans hz⟩)
  · intro c
    unfold HashHistogram.value HashHistogram.valueAtIndex
    simp only [i.index, g]
  · intro _
    unfold HashHistogram.beq
    rw [i.eqR, (HMap.beq_congr PEq.peq ok.nodup k g).2]


/-- C46: items of an iteration -/
theorem C46_item {B : Type} [Serde B] (hB : RoundTrips B) (hV : RoundTrips V) (a : Item B V) (hi : a.index < usizeSize) :
    (∃ v, Serde.ser a v) ∧ ∀ v, Serde.ser a v → Serde.de v = some a := by
  obtain ⟨i, b, w⟩ := a
  obtain ⟨⟨v1, s1⟩, h1⟩ := hB b
  obtain ⟨⟨v2, s2⟩, h2⟩ := hV w
  refine ⟨⟨_, _, v1, v2, rfl, s1, s2, rfl⟩, ?_⟩
  rintro _ ⟨vi, x, y, hvi, hx, hy, rfl⟩
  simp [Serde.de, structMap, fieldDe, SVal.isKey, SVal.isStr, h1 x hx, h2 y hy, usize_round hi hvi]

/-! ## C50 -/

/-- C50, the part that holds: a histogram is read only from data with exactly one `axes` and one `values` entry (or the two-element sequence of them), each of
which is itself accepted. -/
theorem C50_fields_partial {v : SVal} {h : VecHistogram A V} (hd : Serde.de v = some h) :
    ∃ x y, Serde.de x = some h.axes ∧ vecDe Serde.de y = some h.values ∧
      (v = .seq [x, y] ∨ ∃ l, v = .map l ∧ l.filter (fun kv => kv.1.isKey "axes") = [(.str "axes", x)] ∧
        l.filter (fun kv => kv.1.isKey "values") = [(.str "values", y)]) := by
  have fld : ∀ {U : Type} {name : String} {de : SVal → Option U} {l : List (SVal × SVal)} {u : U}, fieldDe name de l = some u →
      ∃ x, l.filter (fun kv => kv.1.isKey name) = [(.str name, x)] ∧ de x = some u := by
    intro U name de l u hu
    unfold fieldDe at hu
    split at hu
    · rename_i kv he
      have hk : kv ∈ l.filter (fun kv => kv.1.isKey name) := by rw [he]; simp
      have hk := (List.mem_filter.1 hk).2
      obtain ⟨k, x⟩ := kv
      have : k = .str name := by
        cases k <;> simp [SVal.isKey] at hk
        rw [hk]
      subst this
      exact ⟨x, he, hu⟩
    · cases hu
  have fromMap : ∀ l, (do
      let l ← structMap (.map l)
      return ⟨← fieldDe "axes" Serde.de l, ← fieldDe "values" (vecDe Serde.de) l⟩ : Option (VecHistogram A V)) = some h →
      ∃ x y, Serde.de x = some h.axes ∧ vecDe Serde.de y = some h.values ∧
        l.filter (fun kv => kv.1.isKey "axes") = [(.str "axes", x)] ∧ l.filter (fun kv => kv.1.isKey "values") = [(.str "values", y)] := by
    intro l hl
    simp only [Option.bind_eq_bind, Option.bind_eq_some_iff] at hl
    obtain ⟨l', h1, a, h2, w, h3, h4⟩ := hl
    have : l' = l := by
      have h1 : (if l.all (fun kv => kv.1.isStr) then some l else none) = some l' := h1
      split at h1
      · injection h1 with h1; exact h1.symm
      · cases h1
    subst this
    injection h4 with h4
    subst h4
    obtain ⟨x, e1, e2⟩ := fld h2
    obtain ⟨y, e3, e4⟩ := fld h3
    exact ⟨x, y, e2, e4, e1, e3⟩
  cases v with
  | seq vs =>
    match vs with
    | [x, y] =>
      have hd : (do return ⟨← Serde.de x, ← vecDe Serde.de y⟩ : Option (VecHistogram A V)) = some h := hd
      simp only [Option.bind_eq_bind, Option.bind_eq_some_iff] at hd
      obtain ⟨a, h1, w, h2, h3⟩ := hd
      injection h3 with h3
      subst h3
      exact ⟨x, y, h1, h2, .inl rfl⟩
    | [] => cases hd
    | [_] => cases hd
    | _ :: _ :: _ :: _ => cases hd
  | map l =>
    obtain ⟨x, y, h1, h2, h3, h4⟩ := fromMap l hd
    exact ⟨x, y, h1, h2, .inr ⟨l, rfl, h3, h4⟩⟩
  | unit => cases hd
  | int n => cases hd
  | f64 x => cases hd
  | str s => cases hd

/-- C50 is false (1): nothing compares the number of values with the axes. Any list of values is accepted together with any axes. -/
theorem C50_counterexample_any_length (hV : RoundTrips V) {a : A} {va : SVal} (ha : Serde.de va = some a) (values : List V) :
    ∃ v, Serde.de v = some (VecHistogram.mk a values) := by
  obtain ⟨w, hw⟩ := vec_total (ser := Serde.ser) values (fun x _ => (hV x).1)
  have d2 := vec_round (de := Serde.de) (fun z _ => (hV z).2) hw
  refine ⟨.seq [va, w], ?_⟩
  show (do return ⟨← Serde.de va, ← vecDe Serde.de w⟩ : Option (VecHistogram A V)) = _
  rw [ha, d2]; rfl

end
end

section
attribute [local instance] dbg64

/-- C50 is false (2): reading `{"axes": {"num": 1, "low": 0, "high": 1, "step": 1}, "values": [0]}` succeeds; the axis has three bins, so iterating over the histogram
panics. -/
theorem C50_counterexample_short :
    ∃ h : VecHistogram (Uniform (MInt .i32)) (MInt .i32),
      Serde.de (.map [(.str "axes", .map [(.str "num", .int 1), (.str "low", .int 0), (.str "high", .int 1), (.str "step", .int 1)]), (.str "values", .seq [.int 0])]) = some h ∧
      Axis.numBins h.axes = .ok 3 ∧ h.iter = .error .expectNone :=
  ⟨⟨⟨1, MInt.lit 0, MInt.lit 1, MInt.lit 1⟩, [MInt.lit 0]⟩, rfl, by decide, by rfl⟩

/-- C50 is false (3): axes the constructors refuse are accepted: no bins, step 0. Looking up a coordinate then divides by zero. -/
theorem C50_counterexample_axis :
    ∃ a : Uniform (MInt .i32), Serde.de (.map [(.str "num", .int 0), (.str "low", .int 0), (.str "high", .int 10), (.str "step", .int 0)]) = some a ∧
      a.index (MInt.lit 5) = .error .divZero :=
  ⟨⟨0, MInt.lit 0, MInt.lit 10, MInt.lit 0⟩, rfl, by decide⟩

/-! ## Examples -/

/-- the hypotheses of the theorems are met by a two-dimensional histogram over an integer and a category axis -/
example (values : List String) (u : Uniform (MInt .i32)) (a : AxesTuple ⟨Uniform (MInt .i32), inferInstance⟩ ⟨Category String, inferInstance⟩ [])
    (hu : u.num < usizeSize) (hv : values.length < usizeSize) (hax : a.axes = (u, Category.new values, ())) (hs : ∀ n ∈ a.shape, n < usizeSize)
    (sums : List (Sum F64)) :
    ∀ v, Serde.ser (VecHistogram.mk a sums) v → ∃ h', Serde.de v = some h' ∧ Indist a h'.axes ∧ VecHistogram.values (V := Sum F64) h' = sums := by
  have each : TupRoundTrips.each a.axes := by
    rw [hax]
    exact ⟨axisRoundTrips_of_exact (C46_uniform (C46_int _) u hu), (C46_category C46_string values hv).1, trivial⟩
  intro v hv
  obtain ⟨h', h1, h2, h3, _⟩ := (C46_vec_histogram (C46_sum C46_f64) ⟨a, sums⟩ (C46_tuple a each hs)).2 v hv
  exact ⟨h', h1, h2, h3⟩

end
end NdHist
