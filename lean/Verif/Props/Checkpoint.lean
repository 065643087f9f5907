import Verif.SpecCheckpoint
import Verif.Props.Content
import Verif.Props.MergeTreeSparse
/-!
# C91: checkpoints and restarts
-/
set_option linter.unusedSectionVars false
namespace NdHist
open RNum

section
variable [cfg : Cfg] {A V : Type} [Axis A] [PEq A]

theorem Indist.refl (a : A) : Indist a a := ⟨rfl, fun _ => rfl, fun _ => rfl, rfl, fun _ => rfl, fun _ => rfl⟩
theorem Indist.trans {a b c : A} (h : Indist a b) (k : Indist b c) : Indist a c :=
  ⟨h.numBins.trans k.numBins, fun x => (h.index x).trans (k.index x), fun i => (h.bin i).trans (k.bin i), h.numDim.trans k.numDim, fun x => (h.eqL x).trans (k.eqL x),
    fun x => (h.eqR x).trans (k.eqR x)⟩

section
variable [Serde A]
theorem RoundTripsForever.step {a : A} (h : RoundTripsForever a) : (∃ v, Serde.ser a v) ∧ ∀ v, Serde.ser a v → ∃ b, Serde.de v = some b ∧ RoundTripsForever b ∧ Indist a b := by
  obtain ⟨P, h0, h1⟩ := h
  refine ⟨(h1 a h0).1, fun v hv => ?_⟩
  obtain ⟨b, hb, hp, hi⟩ := (h1 a h0).2 v hv
  exact ⟨b, hb, ⟨P, hp, h1⟩, hi⟩

theorem RoundTripsForever.once {a : A} (h : RoundTripsForever a) : AxisRoundTrips a :=
  ⟨h.step.1, fun v hv => (h.step.2 v hv).imp fun _ hb => ⟨hb.1, hb.2.2⟩⟩

/-- **C91 (axes).** An axis that is read back as the very same one (all but the category axes) can be written and read any number of times. -/
theorem C91_axis_exact {a : A} (h : (∃ v, Serde.ser a v) ∧ ∀ v, Serde.ser a v → Serde.de v = some a) : RoundTripsForever a :=
  ⟨(· = a), rfl, fun b hb => by subst hb; exact ⟨h.1, fun v hv => ⟨b, h.2 v hv, rfl, Indist.refl b⟩⟩⟩
end

/-- **C91 (category axes)**, whatever the order in which the maps are written each time -/
theorem C91_axis_category {T : Type} [Serde T] [DecidableEq T] (hT : RoundTrips T) (values : List T) (hmem : values.length < usizeSize) :
    RoundTripsForever (Category.new values) ∧ RoundTripsForever (CategoryNoFlow.new values) := by
  obtain ⟨hn1, hn2⟩ := Category.new_nodup values
  obtain ⟨hlen, hval, hidx⟩ := Category.new_spec values
  -- the property kept by every round: the two maps look up the same
  let P : Category T → Prop := fun a => a.mapTToIndex.NodupKeys ∧ a.mapIndexToT.NodupKeys ∧ (∀ k, a.mapTToIndex.get k = (Category.new values).mapTToIndex.get k) ∧
    ∀ k, a.mapIndexToT.get k = (Category.new values).mapIndexToT.get k
  have key : ∀ a, P a → (∃ v, Serde.ser a v) ∧ ∀ v, Serde.ser a v → ∃ b, Serde.de v = some b ∧ P b ∧ Indist a b ∧ Indist (CategoryNoFlow.mk a) (CategoryNoFlow.mk b) := by
    rintro a ⟨p1, p2, p3, p4⟩
    have fit1 : ∀ e ∈ a.mapTToIndex.entries, e.2 < usizeSize := by
      intro e he
      have := (HMap.mem_entries_iff p1 e.1 e.2).1 he
      rw [p3] at this
      have := ((hidx e.1 e.2).1 this).1
      obtain ⟨h, _⟩ := List.getElem?_eq_some_iff.1 this
      omega
    have fit2 : ∀ e ∈ a.mapIndexToT.entries, e.1 < usizeSize := by
      intro e he
      have := (HMap.mem_entries_iff p2 e.1 e.2).1 he
      rw [p4] at this
      have := (hval e.1).symm.trans this
      obtain ⟨h, _⟩ := List.getElem?_eq_some_iff.1 this
      omega
    obtain ⟨v1, s1⟩ := hmap_total (serK := Serde.ser) (serV := usizeSer) a.mapTToIndex (fun e _ => (hT e.1).1) (fun e _ => ⟨_, rfl⟩)
    obtain ⟨v2, s2⟩ := hmap_total (serK := usizeSer) (serV := Serde.ser) a.mapIndexToT (fun e _ => ⟨_, rfl⟩) (fun e _ => (hT e.2).1)
    refine ⟨⟨_, v1, v2, s1, s2, rfl⟩, ?_⟩
    rintro _ ⟨x, y, hx, hy, rfl⟩
    obtain ⟨m1, d1, k1, g1⟩ := hmap_round (deK := Serde.de) (deV := usizeDe) p1 (fun e _ => (hT e.1).2) (fun e he v hv => usize_round (fit1 e he) hv) hx
    obtain ⟨m2, d2, k2, g2⟩ := hmap_round (deK := usizeDe) (deV := Serde.de) p2 (fun e he v hv => usize_round (fit2 e he) hv) (fun e _ => (hT e.2).2) hy
    obtain ⟨i1, i2⟩ := category_indist (a := a) (b := ⟨m1, m2⟩) p1 p2 k1 k2 g1 g2
    refine ⟨⟨m1, m2⟩, ?_, ⟨k1, k2, fun k => (g1 k).trans (p3 k), fun k => (g2 k).trans (p4 k)⟩, i1, i2⟩
    show (do
      let l ← structMap (.map [(.str "map_t_to_index", x), (.str "map_index_to_t", y)])
      return ⟨← fieldDe "map_t_to_index" (hmapDe Serde.de usizeDe) l, ← fieldDe "map_index_to_t" (hmapDe usizeDe Serde.de) l⟩ : Option (Category T)) = _
    simp [structMap, fieldDe, SVal.isKey, SVal.isStr, d1, d2]
  have h0 : P (Category.new values) := ⟨hn1, hn2, fun _ => rfl, fun _ => rfl⟩
  constructor
  · refine ⟨P, h0, fun a ha => ⟨(key a ha).1, fun v hv => ?_⟩⟩
    obtain ⟨b, h1, h2, h3, -⟩ := (key a ha).2 v hv
    exact ⟨b, h1, h2, h3⟩
  · refine ⟨fun a => P a.axis, h0, ?_⟩
    rintro ⟨a⟩ ha
    obtain ⟨⟨v, hv⟩, hr⟩ := key a ha
    refine ⟨⟨_, v, hv, rfl⟩, ?_⟩
    rintro _ ⟨x, hx, rfl⟩
    obtain ⟨b, h1, h2, -, h3⟩ := hr x hx
    refine ⟨⟨b⟩, ?_, h2, h3⟩
    show (do let l ← structMap (.map [(.str "axis", x)]); return ⟨← fieldDe "axis" Serde.de l⟩ : Option (CategoryNoFlow T)) = _
    simp [structMap, fieldDe, SVal.isKey, SVal.isStr, h1]

/-- `each a`: every axis of the tuple `a` can be written and read any number of times -/
class TupForever (ts : List AxTy) [TupPEq ts] [TupSerde ts] where
  each : Tup ts → Prop
  round : ∀ a, each a → (∃ v, TupSerde.ser a v) ∧ ∀ v, TupSerde.ser a v → ∃ b, TupSerde.de v = some b ∧ each b ∧ TupIndist a b

instance : TupForever [] where
  each _ := True
  round a _ := ⟨⟨[], rfl⟩, fun v hv => ⟨(), by rw [show v = [] from hv]; rfl, trivial, rfl, fun _ => rfl, fun _ => rfl, fun _ => rfl, fun _ => rfl⟩⟩

theorem TupIndist.cons {t : AxTy} {ts : List AxTy} [PEq t.A] [TupPEq ts] {a b : t.A} {as bs : Tup ts} (i1 : Indist a b) (i2 : TupIndist as bs) :
    TupIndist (ts := t :: ts) (a, as) (b, bs) := by
  refine ⟨?_, ?_, ?_, ?_, ?_⟩
  · show (do let n ← Axis.numBins a; let ns ← as.numBinsList; return n :: ns : Res _) = (do let n ← Axis.numBins b; let ns ← bs.numBinsList; return n :: ns)
    rw [i1.numBins, i2.numBins]
  · rintro ⟨c, cs⟩
    simp only [Tup.indices]
    rw [i1.index]
    simp only [i2.indices]
  · intro is
    cases is with
    | nil => rfl
    | cons i is =>
      simp only [Tup.bins]
      rw [i1.bin]
      simp only [i2.bins]
  · intro x
    show (PEq.peq a x.1 && TupPEq.peq as x.2) = (PEq.peq b x.1 && TupPEq.peq bs x.2)
    rw [i1.eqL, i2.eqL]
  · intro x
    show (PEq.peq x.1 a && TupPEq.peq x.2 as) = (PEq.peq x.1 b && TupPEq.peq x.2 bs)
    rw [i1.eqR, i2.eqR]

instance {t : AxTy} {ts : List AxTy} [PEq t.A] [TupPEq ts] [Serde t.A] [TupSerde ts] [TupForever ts] : TupForever (t :: ts) where
  each a := RoundTripsForever a.1 ∧ TupForever.each a.2
  round := by
    rintro ⟨a, as⟩ ⟨h1, h2⟩
    obtain ⟨⟨v, hv⟩, h1⟩ := h1.step
    obtain ⟨⟨vs, hvs⟩, h2⟩ := TupForever.round as h2
    refine ⟨⟨v :: vs, v, vs, hv, hvs, rfl⟩, ?_⟩
    rintro _ ⟨x, xs, hx, hxs, rfl⟩
    obtain ⟨b, d1, e1, i1⟩ := h1 x hx
    obtain ⟨bs, d2, e2, i2⟩ := h2 xs hxs
    refine ⟨(b, bs), ?_, ⟨e1, e2⟩, .cons i1 i2⟩
    show (do return (← Serde.de x, ← TupSerde.de xs) : Option (Tup (t :: ts))) = _
    rw [d1, d2]; rfl

/-- **C91 (tuples of one axis).** -/
theorem C91_axis_tuple1 {X : Type} [Axis X] [PEq X] [Serde X] (a : AxesTuple1 X) (ha : RoundTripsForever a.axis) (hs : ∀ n ∈ a.shape, n < usizeSize) :
    RoundTripsForever a := by
  refine ⟨fun b => RoundTripsForever b.axis ∧ ∀ n ∈ b.shape, n < usizeSize, ⟨ha, hs⟩, ?_⟩
  rintro ⟨a, shape⟩ ⟨ha, hs⟩
  obtain ⟨⟨v, hv⟩, h1⟩ := ha.step
  obtain ⟨⟨w, hw⟩, h2⟩ := shape_round hs
  refine ⟨⟨_, v, w, hv, hw, rfl⟩, ?_⟩
  rintro _ ⟨x, s, hx, hs', rfl⟩
  obtain ⟨b, d, e, i⟩ := h1 x hx
  refine ⟨⟨b, shape⟩, ?_, ⟨e, hs⟩, i.numBins, i.index, i.bin, rfl, ?_, ?_⟩
  · show (do
      let l ← structMap (.map [(.str "axes", .seq [x]), (.str "shape", s)])
      return ⟨← fieldDe "axes" (fun | .seq [x] => Serde.de x | _ => none) l, ← fieldDe "shape" (vecDe usizeDe) l⟩ : Option (AxesTuple1 X)) = _
    simp [structMap, fieldDe, SVal.isKey, SVal.isStr, d, h2 s hs']
  · intro y
    show (PEq.peq a y.axis && _) = (PEq.peq b y.axis && _)
    rw [i.eqL]
  · intro y
    show (PEq.peq y.axis a && _) = (PEq.peq y.axis b && _)
    rw [i.eqR]

/-- **C91 (tuples of any number of axes).** -/
theorem C91_axis_tuple {t₀ t₁ : AxTy} {ts : List AxTy} [TupPEq (t₀ :: t₁ :: ts)] [TupSerde (t₀ :: t₁ :: ts)] [TupForever (t₀ :: t₁ :: ts)]
    (a : AxesTuple t₀ t₁ ts) (ha : TupForever.each a.axes) (hs : ∀ n ∈ a.shape, n < usizeSize) : RoundTripsForever a := by
  refine ⟨fun b => TupForever.each b.axes ∧ ∀ n ∈ b.shape, n < usizeSize, ⟨ha, hs⟩, ?_⟩
  rintro ⟨a, shape⟩ ⟨ha, hs⟩
  obtain ⟨⟨v, hv⟩, h1⟩ := TupForever.round a ha
  obtain ⟨⟨w, hw⟩, h2⟩ := shape_round hs
  refine ⟨⟨_, v, w, hv, hw, rfl⟩, ?_⟩
  rintro _ ⟨x, s, hx, hs', rfl⟩
  obtain ⟨b, d, e, i⟩ := h1 x hx
  refine ⟨⟨b, shape⟩, ?_, ⟨e, hs⟩, ?_, ?_, ?_, rfl, ?_, ?_⟩
  · show (do
      let l ← structMap (.map [(.str "axes", .seq x), (.str "shape", s)])
      return ⟨← fieldDe "axes" tupDe l, ← fieldDe "shape" (vecDe usizeDe) l⟩ : Option (AxesTuple t₀ t₁ ts)) = _
    simp [structMap, fieldDe, SVal.isKey, SVal.isStr, tupDe, d, h2 s hs']
  · show AxesTuple.numBins _ = AxesTuple.numBins _
    unfold AxesTuple.numBins
    rw [show (AxesTuple.mk a shape).axes.numBinsList = (AxesTuple.mk b shape).axes.numBinsList from i.numBins]
  · intro c
    show AxesTuple.index _ _ = AxesTuple.index _ _
    unfold AxesTuple.index
    rw [show (AxesTuple.mk a shape).axes.indices c = (AxesTuple.mk b shape).axes.indices c from i.indices c]
  · intro k
    show AxesTuple.bin _ _ = AxesTuple.bin _ _
    unfold AxesTuple.bin
    rw [show (AxesTuple.mk a shape).axes.numBinsList = (AxesTuple.mk b shape).axes.numBinsList from i.numBins]
    simp only [show ∀ is, (AxesTuple.mk a shape).axes.bins is = (AxesTuple.mk b shape).axes.bins is from i.bins]
  · intro y
    show (TupPEq.peq a y.axes && _) = (TupPEq.peq b y.axes && _)
    rw [i.eqL]
  · intro y
    show (TupPEq.peq y.axes a && _) = (TupPEq.peq y.axes b && _)
    rw [i.eqR]

/-! ## Histograms that cannot be told apart -/

theorem IndistVec.refl (h : VecHistogram A V) : IndistVec h h := ⟨Indist.refl _, rfl⟩
theorem IndistVec.trans {a b c : VecHistogram A V} (h : IndistVec a b) (k : IndistVec b c) : IndistVec a c := ⟨h.axes.trans k.axes, k.values.trans h.values⟩
theorem IndistVec.get {a b : VecHistogram A V} (h : IndistVec a b) (i : Nat) : b.valueAtIndex i = a.valueAtIndex i := by
  show b.values[i]? = a.values[i]?
  rw [h.values]
theorem IndistVec.ok {a b : VecHistogram A V} (h : IndistVec a b) {n : Nat} (ok : a.Ok n) : b.Ok n :=
  ⟨⟨by rw [← h.axes.numBins]; exact ok.lawful.numBins, ok.lawful.fits, fun c i hi => ok.lawful.index_lt c i (by rw [h.axes.index]; exact hi),
    fun i hi => by rw [← h.axes.bin]; exact ok.lawful.bin_some i hi⟩, by rw [h.values]; exact ok.size⟩

theorem IndistVec.call {a b : VecHistogram A V} (h : IndistVec a b) (c : Call V (Axis.Coordinate A)) : IndistVec (a.call c).1 (b.call c).1 ∧ (b.call c).2 = (a.call c).2 := by
  rcases hi : Axis.index a.axes c.coord with p | _ | i
  · rw [VecHistogram.call_error hi, VecHistogram.call_error ((h.axes.index _).symm.trans hi)]
    exact ⟨h, rfl⟩
  · rw [VecHistogram.call_none hi, VecHistogram.call_none ((h.axes.index _).symm.trans hi)]
    exact ⟨h, rfl⟩
  · cases hv : a.valueAtIndex i with
    | none =>
      rw [VecHistogram.call_out hi hv, VecHistogram.call_out ((h.axes.index _).symm.trans hi) ((h.get i).trans hv)]
      exact ⟨h, rfl⟩
    | some v =>
      rw [VecHistogram.call_some hi hv, VecHistogram.call_some ((h.axes.index _).symm.trans hi) ((h.get i).trans hv)]
      refine ⟨⟨h.axes, ?_⟩, rfl⟩
      show b.values.modify i _ = a.values.modify i _
      rw [h.values]

theorem axis_iter_congr {a b : A} (h : Indist a b) : Axis.iter a = Axis.iter b := by
  unfold Axis.iter Axis.indices
  simp only [h.numBins, h.bin]

/-- **C91 (what "cannot be told apart" includes, dense).** Every lookup, the whole iteration, `==` with any histogram on either side, and every further call: it panics alike and the results again
cannot be told apart; so do the operators with any histogram on either side. -/
theorem C91_indist_dense {h h' : VecHistogram A V} (hi : IndistVec h h') :
    (∀ c, h'.value c = h.value c) ∧ (∀ i, h'.valueAtIndex i = h.valueAtIndex i) ∧ h'.iter = h.iter ∧
    (∀ c, (h'.call c).2 = (h.call c).2 ∧ IndistVec (h.call c).1 (h'.call c).1) ∧
    (∀ [PEq V] (x : VecHistogram A V), h'.beq x = h.beq x ∧ x.beq h' = x.beq h) ∧
    (∀ [ROps V] (o : Op) (x : VecHistogram A V), x.opBorrow o h' = x.opBorrow o h ∧
      ((∃ p, h.opBorrow o x = .error p ∧ h'.opBorrow o x = .error p) ∨ (∃ e, h.opBorrow o x = .ok (.error e) ∧ h'.opBorrow o x = .ok (.error e)) ∨
        ∃ m m', h.opBorrow o x = .ok (.ok m) ∧ h'.opBorrow o x = .ok (.ok m') ∧ IndistVec m m')) := by
  refine ⟨?_, hi.get, ?_, fun c => ⟨(hi.call c).2, (hi.call c).1⟩, ?_, ?_⟩
  · intro c
    unfold VecHistogram.value
    simp only [hi.axes.index, hi.values]
  · unfold VecHistogram.iter
    rw [axis_iter_congr hi.axes]
    simp only [hi.get]
  · intro _ x
    unfold VecHistogram.beq
    rw [hi.axes.eqL, hi.axes.eqR, hi.values]
    exact ⟨rfl, rfl⟩
  · intro _ o x
    unfold VecHistogram.opBorrow
    rw [hi.axes.eqL, hi.axes.eqR, hi.values]
    refine ⟨rfl, ?_⟩
    split
    · exact .inr (.inl ⟨_, rfl, rfl⟩)
    · cases hz : zipRes (ROps.op o) h.values x.values with
      | error p => exact .inl ⟨p, rfl, rfl⟩
      | ok z => exact .inr (.inr ⟨_, _, rfl, rfl, hi.axes, rfl⟩)

theorem IndistHash.refl (h : HashHistogram A V) : IndistHash h h := ⟨Indist.refl _, fun _ => rfl⟩
theorem IndistHash.trans {a b c : HashHistogram A V} (h : IndistHash a b) (k : IndistHash b c) : IndistHash a c := ⟨h.axes.trans k.axes, fun i => (k.values i).trans (h.values i)⟩

theorem IndistHash.call [RDefault V] {a b : HashHistogram A V} (h : IndistHash a b) (c : Call V (Axis.Coordinate A)) :
    IndistHash (a.call c).1 (b.call c).1 ∧ (b.call c).2 = (a.call c).2 := by
  refine ⟨⟨by rw [HashHistogram.call_axes, HashHistogram.call_axes]; exact h.axes, fun i => ?_⟩, ?_⟩
  · rw [HashHistogram.call_get, HashHistogram.call_get, h.axes.index, h.values]
  · rw [HashHistogram.call_eq, HashHistogram.call_eq, h.axes.index]
    split
    · rfl
    · rfl
    · rename_i i _
      show (HashHistogram.entryUpd b.values i c.on).2 = (HashHistogram.entryUpd a.values i c.on).2
      simp only [HashHistogram.entryUpd]
      rw [show b.values.get i = a.values.get i from h.values i]

/-- **C91 (what "cannot be told apart" includes, sparse).** -/
theorem C91_indist_sparse [RDefault V] {h h' : HashHistogram A V} (hi : IndistHash h h') :
    (∀ c, h'.value c = h.value c) ∧ (∀ i, h'.valueAtIndex i = h.valueAtIndex i) ∧
    (∀ c, (h'.call c).2 = (h.call c).2 ∧ IndistHash (h.call c).1 (h'.call c).1) ∧
    (∀ {n n' : Nat} [PEq V] (x : HashHistogram A V), h.Ok n → h'.Ok n' → h'.beq x = h.beq x ∧ x.beq h' = x.beq h) := by
  refine ⟨?_, hi.values, fun c => ⟨(hi.call c).2, (hi.call c).1⟩, ?_⟩
  · intro c
    unfold HashHistogram.value
    simp only [hi.axes.index, hi.values]
  · intro n n' _ x ok ok'
    unfold HashHistogram.beq
    have := HMap.beq_congr PEq.peq ok.nodup ok'.nodup hi.values
    rw [hi.axes.eqL, hi.axes.eqR, this.1, this.2]
    exact ⟨rfl, rfl⟩

/-! ## Jobs -/

section
variable [Serde A] [Serde V]

theorem vec_forever (hV : RoundTrips V) {h : VecHistogram A V} (hA : RoundTripsForever h.axes) :
    (∃ v, Serde.ser h v) ∧ ∀ v, Serde.ser h v → ∃ h', Serde.de v = some h' ∧ RoundTripsForever h'.axes ∧ IndistVec h h' := by
  obtain ⟨⟨v, hv⟩, h1⟩ := hA.step
  obtain ⟨w, hw⟩ := vec_total (ser := Serde.ser) h.values (fun x _ => (hV x).1)
  refine ⟨⟨_, v, w, hv, hw, rfl⟩, ?_⟩
  rintro _ ⟨x, y, hx, hy, rfl⟩
  obtain ⟨b, d, e, i⟩ := h1 x hx
  have d2 := vec_round (de := Serde.de) (fun z _ => (hV z).2) hy
  refine ⟨⟨b, h.values⟩, ?_, e, i, rfl⟩
  show (do
    let l ← structMap (.map [(.str "axes", x), (.str "values", y)])
    return ⟨← fieldDe "axes" Serde.de l, ← fieldDe "values" (vecDe Serde.de) l⟩ : Option (VecHistogram A V)) = _
  simp [structMap, fieldDe, SVal.isKey, SVal.isStr, d, d2]

theorem hash_forever (hV : RoundTrips V) {h : HashHistogram A V} {n : Nat} (ok : h.Ok n) (hA : RoundTripsForever h.axes) :
    (∃ v, Serde.ser h v) ∧ ∀ v, Serde.ser h v → ∃ h', Serde.de v = some h' ∧ RoundTripsForever h'.axes ∧ h'.Ok n ∧ IndistHash h h' := by
  obtain ⟨⟨v, hv⟩, h1⟩ := hA.step
  have fit : ∀ e ∈ h.values.entries, e.1 < usizeSize := fun e he => lt_trans (ok.valid e.1 (List.mem_map_of_mem he)) ok.lawful.fits
  obtain ⟨w, hw⟩ := hmap_total (serK := usizeSer) (serV := Serde.ser) h.values (fun _ _ => ⟨_, rfl⟩) (fun e _ => (hV e.2).1)
  refine ⟨⟨_, v, w, hv, hw, rfl⟩, ?_⟩
  rintro _ ⟨x, y, hx, hy, rfl⟩
  obtain ⟨b, d, e, i⟩ := h1 x hx
  obtain ⟨m, d2, k, g⟩ := hmap_round (deK := usizeDe) (deV := Serde.de) ok.nodup (fun e he _ hv => usize_round (fit e he) hv) (fun e _ => (hV e.2).2) hy
  refine ⟨⟨b, m⟩, ?_, e, ⟨i.lawful ok.lawful, k, ?_⟩, i, g⟩
  · show (do
      let l ← structMap (.map [(.str "axes", x), (.str "values", y)])
      return ⟨← fieldDe "axes" Serde.de l, ← fieldDe "values" (hmapDe usizeDe Serde.de) l⟩ : Option (HashHistogram A V)) = _
    simp [structMap, fieldDe, SVal.isKey, SVal.isStr, d, d2]
  · intro j hj
    obtain ⟨z, hz⟩ := (HMap.get_isSome _ _).2 hj
    exact ok.valid j ((HMap.get_isSome _ _).1 ⟨z, (g j).symm.trans hz⟩)

theorem take_succ_getElem? {C : Type u} {l : List C} {k : Nat} {c : C} (h : l[k]? = some c) : l.take (k + 1) = l.take k ++ [c] := by
  rw [List.take_add_one, h]; rfl

/-- **C91 (dense).** A job that starts with a histogram written to the file, makes the calls of the list, writes its histogram to the file at any moments and is killed and restarted from the file at any
moments, any number of times and in any order: whenever it has made `pos` of the calls, its histogram cannot be told apart from the one that a job that was never killed has after the first
`pos` calls (with panics of the calls caught). It can be written at any moment, and the file can always be read: it holds a histogram that cannot be told apart from the one after the first
`filePos` calls. -/
theorem C91_dense (hV : RoundTrips V) {h : VecHistogram A V} (hA : RoundTripsForever h.axes) {v : SVal} (hsave : Serde.ser h v) (calls : List (Call V (Axis.Coordinate A)))
    {j : Job (VecHistogram A V)} (run : Job.Run (fun h c => (h.call c).1) calls ⟨h, 0, v, 0⟩ j) :
    j.filePos ≤ j.pos ∧ j.pos ≤ calls.length ∧ IndistVec (h.callAllCaught (calls.take j.pos)) j.mem ∧ (∃ v, Serde.ser j.mem v) ∧
    ∃ m, Serde.de j.file = some m ∧ IndistVec (h.callAllCaught (calls.take j.filePos)) m := by
  suffices key : j.filePos ≤ j.pos ∧ j.pos ≤ calls.length ∧ (IndistVec (h.callAllCaught (calls.take j.pos)) j.mem ∧ RoundTripsForever j.mem.axes) ∧
      ∃ m, Serde.de j.file = some m ∧ IndistVec (h.callAllCaught (calls.take j.filePos)) m ∧ RoundTripsForever m.axes by
    obtain ⟨k1, k2, ⟨k3, k4⟩, m, k5, k6, -⟩ := key
    exact ⟨k1, k2, k3, (vec_forever hV k4).1, m, k5, k6⟩
  induction run with
  | refl =>
    obtain ⟨m, m1, m2, m3⟩ := (vec_forever hV hA).2 v hsave
    exact ⟨Nat.le_refl _, Nat.zero_le _, ⟨IndistVec.refl _, hA⟩, m, m1, m3, m2⟩
  | tail _ hs ih =>
    obtain ⟨k1, k2, ⟨k3, k4⟩, m, k5, k6, k7⟩ := ih
    cases hs with
    | call c hc =>
      have hlt := (List.getElem?_eq_some_iff.1 hc).1
      refine ⟨Nat.le_succ_of_le k1, hlt, ⟨?_, ?_⟩, m, k5, k6, k7⟩
      · show IndistVec (h.callAllCaught (calls.take (_ + 1))) _
        rw [take_succ_getElem? hc, VecHistogram.callAllCaught, List.foldl_append]
        exact (k3.call c).1
      · show RoundTripsForever (VecHistogram.axes (VecHistogram.call _ c).1)
        rw [VecHistogram.call_axes]; exact k4
    | save w hw =>
      obtain ⟨m', m1, m2, m3⟩ := (vec_forever hV k4).2 w hw
      exact ⟨Nat.le_refl _, k2, ⟨k3, k4⟩, m', m1, k3.trans m3, m2⟩
    | restart g hg =>
      rw [k5] at hg; cases hg
      exact ⟨Nat.le_refl _, Nat.le_trans k1 k2, ⟨k6, k7⟩, m, k5, k6, k7⟩

/-- **C91 (sparse).** The same for a sparse histogram, whatever the order in which its map is written. -/
theorem C91_sparse [RDefault V] (hV : RoundTrips V) {h : HashHistogram A V} {n : Nat} (ok : h.Ok n) (hA : RoundTripsForever h.axes) {v : SVal} (hsave : Serde.ser h v)
    (calls : List (Call V (Axis.Coordinate A))) {j : Job (HashHistogram A V)} (run : Job.Run (fun h c => (h.call c).1) calls ⟨h, 0, v, 0⟩ j) :
    j.filePos ≤ j.pos ∧ j.pos ≤ calls.length ∧ (IndistHash (h.callAllCaught (calls.take j.pos)) j.mem ∧ j.mem.Ok n) ∧ (∃ v, Serde.ser j.mem v) ∧
    ∃ m, Serde.de j.file = some m ∧ IndistHash (h.callAllCaught (calls.take j.filePos)) m ∧ m.Ok n := by
  suffices key : j.filePos ≤ j.pos ∧ j.pos ≤ calls.length ∧ (IndistHash (h.callAllCaught (calls.take j.pos)) j.mem ∧ j.mem.Ok n ∧ RoundTripsForever j.mem.axes) ∧
      ∃ m, Serde.de j.file = some m ∧ IndistHash (h.callAllCaught (calls.take j.filePos)) m ∧ m.Ok n ∧ RoundTripsForever m.axes by
    obtain ⟨k1, k2, ⟨k3, k3', k4⟩, m, k5, k6, k6', -⟩ := key
    exact ⟨k1, k2, ⟨k3, k3'⟩, (hash_forever hV k3' k4).1, m, k5, k6, k6'⟩
  induction run with
  | refl =>
    obtain ⟨m, m1, m2, m2', m3⟩ := (hash_forever hV ok hA).2 v hsave
    exact ⟨Nat.le_refl _, Nat.zero_le _, ⟨IndistHash.refl _, ok, hA⟩, m, m1, m3, m2', m2⟩
  | tail _ hs ih =>
    obtain ⟨k1, k2, ⟨k3, k3', k4⟩, m, k5, k6, k6', k7⟩ := ih
    cases hs with
    | call c hc =>
      have hlt := (List.getElem?_eq_some_iff.1 hc).1
      refine ⟨Nat.le_succ_of_le k1, hlt, ⟨?_, k3'.call c, ?_⟩, m, k5, k6, k6', k7⟩
      · show IndistHash (h.callAllCaught (calls.take (_ + 1))) _
        rw [take_succ_getElem? hc, HashHistogram.callAllCaught, List.foldl_append]
        exact (k3.call c).1
      · show RoundTripsForever (HashHistogram.axes (HashHistogram.call _ c).1)
        rw [HashHistogram.call_axes]; exact k4
    | save w hw =>
      obtain ⟨m', m1, m2, m2', m3⟩ := (hash_forever hV k3' k4).2 w hw
      exact ⟨Nat.le_refl _, k2, ⟨k3, k3', k4⟩, m', m1, k3.trans m3, m2', m2⟩
    | restart g hg =>
      rw [k5] at hg; cases hg
      exact ⟨Nat.le_refl _, Nat.le_trans k1 k2, ⟨k6, k6', k7⟩, m, k5, k6, k6', k7⟩
end

open Classical in
/-- **C91 (exactly once).** However often a job that counts with integers was killed: when it is done, each bin holds the number of the coordinates that its interval contains. -/
theorem C91_count [Serde A] {τ : IntTy} {n : Nat} {covers dom} {axes : A} (hf : FaithfulAxis axes n covers dom) (hA : RoundTripsForever axes)
    {h : VecHistogram A (MInt τ)} (hnew : VecHistogram.new axes = .ok h) {v : SVal} (hsave : Serde.ser h v) (cs : List (Axis.Coordinate A)) (hd : ∀ c ∈ cs, dom c)
    (hfit : (cs.length : ℤ) ≤ τ.max) {j : Job (VecHistogram A (MInt τ))} (run : Job.Run (fun h c => (h.call c).1) (cs.map Call.fill) ⟨h, 0, v, 0⟩ j) (done : j.pos = cs.length) :
    ∃ items, j.mem.iter = .ok items ∧ items.length = n ∧
      ∀ i it, items[i]? = some it → it.index = i ∧ Axis.bin axes i = .ok (some it.bin) ∧ it.value.val = ((cs.countP fun c => covers it.bin c : ℕ) : ℤ) := by
  obtain ⟨h', items, h1, h2, h3, h4⟩ := C52_count_int hf hnew cs hd hfit
  have hax : h.axes = axes := by
    have := (C28_dense hf.lawful hnew []).2.1
    simpa [VecHistogram.callAllCaught] using this
  have hr := (C91_dense (C46_int τ) (by rw [hax]; exact hA) hsave _ run).2.2.1
  have e : h.callAllCaught ((cs.map Call.fill).take j.pos) = h' := by
    rw [done, List.take_of_length_le (by simp), ← (C28_until_panic h _).1 (by rw [h1]), h1]
  rw [e] at hr
  exact ⟨items, by rw [(C91_indist_dense hr).2.2.1]; exact h2, h3, h4⟩

/-- **C91 (exactly once, sparse).** -/
theorem C91_count_sparse [Serde A] {τ : IntTy} {n : Nat} {covers dom} {axes : A} (hf : FaithfulAxis axes n covers dom) (hrefl : PEq.peq axes axes = true) (hA : RoundTripsForever axes)
    {v : SVal} (hsave : Serde.ser (HashHistogram.new axes : HashHistogram A (MInt τ)) v) (cs : List (Axis.Coordinate A)) (hd : ∀ c ∈ cs, dom c)
    (hfit : (cs.length : ℤ) ≤ τ.max) {j : Job (HashHistogram A (MInt τ))} (run : Job.Run (fun h c => (h.call c).1) (cs.map Call.fill) ⟨HashHistogram.new axes, 0, v, 0⟩ j)
    (done : j.pos = cs.length) :
    (∀ i, n ≤ i → j.mem.valueAtIndex i = none) ∧ ∀ i b, i < n → Axis.bin axes i = .ok (some b) → ∀ [DecidablePred (covers b)],
      (j.mem.valueAtIndex i).map (·.val) = if cs.countP (covers b) = 0 then none else some ((cs.countP (covers b) : ℕ) : ℤ) := by
  obtain ⟨⟨x, hx⟩, hall⟩ := C54_count_sparse (τ := τ) hf hrefl (.share (cs.map .fill)) cs rfl hd hfit
  obtain ⟨m, rfl, h1, h2⟩ := hall x hx
  have hm : (HashHistogram.new axes : HashHistogram A (MInt τ)).callAll (cs.map Call.fill) = (m, none) := by
    cases hx with
    | share h => exact h
  have hr := (C91_sparse (C46_int τ) (n := n) ⟨hf.lawful, HMap.nodup_empty, by simp [HashHistogram.new, HMap.empty, HMap.keys]⟩ hA hsave _ run).2.2.1.1
  rw [done, List.take_of_length_le (by simp), ← (C28_until_panic_sparse _ _).1 (by rw [hm]), hm] at hr
  refine ⟨fun i hi => by rw [hr.values]; exact h1 i hi, fun i b hi hb => ?_⟩
  intro _
  rw [hr.values]
  exact h2 i b hi hb
end
end NdHist
