import Verif.Props.NearStep
import Verif.Props.FloatExact
import Verif.Props.Access
/-!
# C103: bins can be addressed by coordinates taken from their own intervals

A program that walks over the bins of a histogram often needs a coordinate *of* the bin it is at, to look the bin up or fill it in another histogram. Here: which choices of a
coordinate are right, and that copying a histogram bin by bin with such a choice gives a copy.
-/
namespace NdHist
open POrd RNum

/-! ## Vocabulary -/

section
variable [Cfg]

/-- Where `pick` chooses a coordinate for the interval of a bin, this coordinate is counted in that very bin. -/
def Addresses {A : Type} [Axis A] (a : A) (n : Nat) (pick : Axis.Interval A → Option (Axis.Coordinate A)) : Prop :=
  ∀ i b c, i < n → Axis.bin a i = .ok (some b) → pick b = some c → Axis.index a c = .ok (some i)

/-- for each axis of a tuple, the choice of a coordinate -/
def TupPick : List AxTy → Type
  | [] => Unit
  | t :: ts => (Axis.Interval t.A → Option (Axis.Coordinate t.A)) × TupPick ts

/-- a coordinate is chosen for a multi-dimensional bin if one is chosen for each of its intervals -/
def pickAll : {ts : List AxTy} → TupPick ts → Intervals ts → Option (Coords ts)
  | [], _, _ => some ()
  | _ :: _, (pick, picks), (b, bs) =>
    match pick b, pickAll picks bs with
    | some c, some cs => some (c, cs)
    | _, _ => none

/-- each axis of the tuple is addressed by its choice -/
def TupAddresses : {ts : List AxTy} → Tup ts → List Nat → TupPick ts → Prop
  | [], _, ns, _ => ns = []
  | _ :: _, (a, as), ns, (pick, picks) => ∃ n ns', ns = n :: ns' ∧ Addresses a n pick ∧ TupAddresses as ns' picks

/-- the program `for item in src.iter() { if let Some(c) = pick(&item.bin) { dst.fill_with(&c, item.value) } }` as a sequence of calls -/
def refill {V D C B : Type} [FillWith V D] (pick : B → Option C) (items : List (Item B D)) : List (Call V C) :=
  items.filterMap fun it => (pick it.bin).map fun c => .fillWith c it.value

/-- the program `for item in src.iter() { if let Some(c) = pick(&item.bin) { *dst.value_mut(&c).unwrap() = item.value } }`; `none`: the `unwrap` panics, as `value_mut` gave `None` or
panicked itself -/
def assignBins {A V : Type} [Axis A] (pick : Axis.Interval A → Option (Axis.Coordinate A)) : List (Item (Axis.Interval A) V) → VecHistogram A V → Option (VecHistogram A V)
  | [], dst => some dst
  | it :: items, dst =>
    match pick it.bin with
    | none => assignBins pick items dst
    | some c =>
      match dst.valueMut c (fun _ => (it.value, none)) with
      | .ok (some (dst', none)) => assignBins pick items dst'
      | _ => none

/-- the middle of an interval of floats, computed as `(start + end) / 2.0`; nothing is chosen for the under- and overflow bins -/
def centre {F : FFmt} : BinInterval (Flt F) → Option (Flt F)
  | .Bin start stop => some (Flt.div (Flt.add start stop) (Flt.ofRat 2))
  | _ => none

/-- the start of an interval, also of the overflow bin -/
def startOf {T : Type} : BinInterval T → Option T
  | .Bin start _ => some start
  | .Overflow start => some start
  | .Underflow _ => none
end

/-! ## Filling a zero -/

section
variable [cfg : Cfg]

theorem MInt.fill_zero {τ : IntTy} (v : MInt τ) : FillWith.fillWith v (RDefault.dflt : MInt τ) = (v, none) := by
  show addAssign v (RDefault.dflt : MInt τ) = _
  have : @RNum.add (MInt τ) cfg _ RDefault.dflt v = .ok v := by
    rw [MInt.add_def]
    have h0 : (RDefault.dflt : MInt τ).val = 0 := rfl
    rw [MInt.arith_ok (by rw [h0, zero_add]; exact v.min_le) (by rw [h0, zero_add]; exact v.le_max)]
    simp [h0]
  simp only [addAssign, Upd.store, this]

omit cfg in
theorem Flt.eq_of_val {F : FFmt} {x y : Flt F} (hx : x.isFin) (hy : y.isFin) (h : x.val = y.val) (h0 : y.val ≠ 0) : x = y := by
  cases x with
  | nan => exact hx.elim
  | inf => exact hx.elim
  | fin s a ha =>
    cases y with
    | nan => exact hy.elim
    | inf => exact hy.elim
    | fin t b hb =>
      have a0 := ha.nonneg
      have b0 := hb.nonneg
      simp only [Flt.val, Flt.sval] at h h0
      cases s <;> cases t <;> simp at h h0 ⊢ <;> first | exact h | (exfalso; apply h0; linarith)

theorem Flt.fill_zero {F : FFmt} (v : Flt F) : FillWith.fillWith v (RDefault.dflt : Flt F) = (if v = Flt.zero true then Flt.zero false else v, none) := by
  show (Flt.add (Flt.zero false) v, none) = _
  congr 1
  cases v with
  | nan => simp [Flt.add, Flt.zero]
  | inf t => simp [Flt.add, Flt.zero]
  | fin t b hb =>
    by_cases h0 : (Flt.fin t b hb : Flt F).val = 0
    · have hb0 : b = 0 := by
        simp only [Flt.val, Flt.sval] at h0
        cases t <;> simpa using h0
      subst hb0
      cases t <;> simp [Flt.add, Flt.zero, Flt.sval]
    · rw [if_neg (fun h => h0 (by rw [h]; simp [Flt.zero, Flt.val, Flt.sval]))]
      have hr := Flt.add_rounds (a := Flt.zero false) (b := (Flt.fin t b hb : Flt F)) trivial trivial
      rw [show (Flt.zero false : Flt F).val = 0 by simp [Flt.zero, Flt.val, Flt.sval], zero_add] at hr
      have := hr.fin_of (Flt.val_rep _).le_maxFin
      rw [Flt.rs_val] at this
      exact Flt.eq_of_val this.1 trivial this.2 h0
end

/-! ## Which choices address the bins -/

section
variable [cfg : Cfg]

/-- **C103 (one axis).** On an axis whose bins count what their intervals contain (up to doubts at the edges), every choice of a coordinate inside the interval addresses the bin. -/
theorem C103_inside {A : Type} [Axis A] {a : A} {n : Nat} {inside near : Axis.Interval A → Axis.Coordinate A → Prop} {dom : Axis.Coordinate A → Prop}
    (hf : RoughAxis a n inside near dom) {pick : Axis.Interval A → Option (Axis.Coordinate A)}
    (hp : ∀ i b c, i < n → Axis.bin a i = .ok (some b) → pick b = some c → dom c ∧ inside b c) : Addresses a n pick := by
  obtain ⟨cov, c1, c2, -⟩ := hf
  intro i b c hi hb hc
  obtain ⟨h1, h2⟩ := hp i b c hi hb hc
  exact (c1.index_iff c h1 i b hi hb).2 (c2 i b c hi hb h1 h2)

theorem TupAddresses.indexOf : {ts : List AxTy} → {as : Tup ts} → {ns is : List Nat} → {picks : TupPick ts} → {bs : Intervals ts} → {cs : Coords ts} →
    TupAddresses as ns picks → InGrid ns is → BinsOf as is bs → pickAll picks bs = some cs → IndexOf as cs is
  | [], _, _, _, _, _, _, _, _, hb, _ => hb
  | _ :: _, (a, as), ns, is, (pick, picks), (b, bs), (c, cs), ⟨n, ns', h1, h2, h3⟩, hg, ⟨i, is', e, hb1, hb2⟩, hp => by
    subst h1 e
    obtain ⟨hlt, hg'⟩ := List.forall₂_cons.1 hg
    simp only [pickAll] at hp
    cases h : pick b with
    | none => rw [h] at hp; exact absurd hp (by simp)
    | some c' =>
      cases h' : pickAll picks bs with
      | none => rw [h, h'] at hp; exact absurd hp (by simp)
      | some cs' =>
        rw [h, h'] at hp
        injection hp with hp
        injection hp with e1 e2
        subst e1 e2
        exact ⟨i, is', rfl, h2 i b _ hlt hb1 h, h3.indexOf hg' hb2 h'⟩

/-- **C103 (several axes).** Choosing a coordinate axis by axis addresses the bins of the tuple. -/
theorem C103_tuple {t₀ t₁ : AxTy} {ts : List AxTy} {item : Tup (t₀ :: t₁ :: ts)} {ns : List Nat} {picks : TupPick (t₀ :: t₁ :: ts)}
    (hp : TupAddresses item ns picks) (hl : TupLawful item ns) (hpos : ∀ n ∈ ns, 0 < n) (hfit : ns.prod < usizeSize)
    {a : AxesTuple t₀ t₁ ts} (ha : AxesTuple.fromTuple item = .ok a) : Addresses a ns.prod (pickAll picks) := by
  intro N b c hN hb hc
  obtain ⟨is, bs, hg, hN', hb', hbs, -⟩ := C21_bin_numbering hl hpos hfit ha hN
  have : b = bs := by
    have hb2 : a.bin N = .ok (some b) := hb
    rw [hb'] at hb2; simpa using hb2.symm
  subst this
  show a.index c = _
  exact ((C20_index_formula hl hpos hfit ha).2 c N).2 ⟨is, hp.indexOf hg hbs hc, hN'.symm, hN⟩

/-! ## Looking a bin up, and copying -/

variable {A V D : Type} [Axis A] {axes : A} {n : Nat} {pick : Axis.Interval A → Option (Axis.Coordinate A)}

/-- **C103 (looking up).** The value found at the coordinate chosen for a bin is the value of the bin. -/
theorem C103_value {h : VecHistogram A V} (ha : Addresses h.axes n pick) {i : Nat} {b : Axis.Interval A} {c : Axis.Coordinate A}
    (hi : i < n) (hb : Axis.bin h.axes i = .ok (some b)) (hc : pick b = some c) : h.value c = .ok (h.valueAtIndex i) := by
  simp [VecHistogram.value, VecHistogram.valueAtIndex, ha i b c hi hb hc, bind, Except.bind, pure, Except.pure]

theorem C103_value_sparse {h : HashHistogram A V} (ha : Addresses h.axes n pick) {i : Nat} {b : Axis.Interval A} {c : Axis.Coordinate A}
    (hi : i < n) (hb : Axis.bin h.axes i = .ok (some b)) (hc : pick b = some c) : h.value c = .ok (h.valueAtIndex i) := by
  simp [HashHistogram.value, ha i b c hi hb hc, bind, Except.bind, pure, Except.pure]

/-- the calls of a bin-by-bin copy that reach bin `i` -/
theorem callsIn_refill [FillWith V D] (ha : Addresses axes n pick) : ∀ {items : List (Item (Axis.Interval A) D)},
    (∀ it ∈ items, it.index < n ∧ Axis.bin axes it.index = .ok (some it.bin)) → ∀ i,
    callsIn axes i (refill (V := V) pick items) = refill pick (items.filter fun it => it.index = i)
  | [], _, _ => rfl
  | it :: items, h, i => by
    have ih := callsIn_refill ha (fun it' h' => h it' (List.mem_cons_of_mem _ h')) i
    obtain ⟨h1, h2⟩ := h it (List.mem_cons_self ..)
    simp only [callsIn, refill] at ih ⊢
    cases hp : pick it.bin with
    | none =>
      rw [List.filterMap_cons_none (by simp [hp]), ih, List.filter_cons]
      split
      · rw [List.filterMap_cons_none (by simp [hp])]
      · rfl
    | some c =>
      have hx := ha it.index it.bin c h1 h2 hp
      rw [List.filterMap_cons_some (by simp [hp]; rfl), List.filter_cons, ih, List.filter_cons]
      have e : (Axis.index axes (Call.fillWith (V := V) c it.value).coord = .ok (some i)) ↔ it.index = i := by
        show Axis.index axes c = _ ↔ _
        rw [hx]; simp
      by_cases hi : it.index = i
      · rw [if_pos (by simpa using e.2 hi), if_pos (by simpa using hi), List.filterMap_cons_some (by simp [hp]; rfl)]
      · rw [if_neg (by simpa using fun h => hi (e.1 h)), if_neg (by simpa using hi)]

omit cfg in
theorem filter_index_nodup {B : Type} : ∀ {items : List (Item B D)}, (items.map (·.index)).Nodup → ∀ {it}, it ∈ items →
    items.filter (fun it' => it'.index = it.index) = [it]
  | [], _, _, h => absurd h (by simp)
  | x :: items, hn, it, h => by
    rw [List.map_cons, List.nodup_cons] at hn
    rw [List.filter_cons]
    rcases List.mem_cons.1 h with rfl | h
    · rw [if_pos (by simp)]
      congr 1
      rw [List.filter_eq_nil_iff]
      intro y hy
      simp only [decide_eq_true_eq]
      intro e
      exact hn.1 (e ▸ List.mem_map_of_mem (f := (·.index)) hy)
    · rw [if_neg, filter_index_nodup hn.2 h]
      simp only [decide_eq_true_eq]
      intro e
      exact hn.1 (e ▸ List.mem_map_of_mem (f := (·.index)) h)

/-- none of the calls of a bin-by-bin copy meets a bin that has been filled before -/
theorem refill_prefix [FillWith V D] (ha : Addresses axes n pick) : ∀ {items : List (Item (Axis.Interval A) D)},
    (∀ it ∈ items, it.index < n ∧ Axis.bin axes it.index = .ok (some it.bin)) → (items.map (·.index)).Nodup →
    ∀ {pre post : List (Call V (Axis.Coordinate A))} {call}, refill pick items = pre ++ call :: post →
      ∃ it ∈ items, Axis.index axes call.coord = .ok (some it.index) ∧ call.on = FillWith.fillWith it.value ∧ callsIn axes it.index pre = []
  | [], _, _, pre, post, call, h => by simp [refill] at h
  | it :: items, hok, hn, pre, post, call, h => by
    have hok' : ∀ it' ∈ items, it'.index < n ∧ Axis.bin axes it'.index = .ok (some it'.bin) := fun it' h' => hok it' (List.mem_cons_of_mem _ h')
    rw [List.map_cons, List.nodup_cons] at hn
    obtain ⟨h1, h2⟩ := hok it (List.mem_cons_self ..)
    cases hp : pick it.bin with
    | none =>
      have : refill (V := V) pick (it :: items) = refill pick items := by unfold refill; rw [List.filterMap_cons_none (by simp [hp])]
      rw [this] at h
      obtain ⟨it', m, k⟩ := refill_prefix ha hok' hn.2 h
      exact ⟨it', List.mem_cons_of_mem _ m, k⟩
    | some c =>
      have : refill (V := V) pick (it :: items) = .fillWith c it.value :: refill pick items := by unfold refill; rw [List.filterMap_cons_some (by simp [hp]; rfl)]
      rw [this] at h
      have hx := ha it.index it.bin c h1 h2 hp
      cases pre with
      | nil =>
        rw [List.nil_append] at h
        injection h with h3 h4
        subst h3
        exact ⟨it, List.mem_cons_self .., hx, rfl, rfl⟩
      | cons x pre =>
        rw [List.cons_append] at h
        injection h with h3 h4
        obtain ⟨it', m, k1, k2, k3⟩ := refill_prefix ha hok' hn.2 h4
        refine ⟨it', List.mem_cons_of_mem _ m, k1, k2, ?_⟩
        unfold callsIn at k3 ⊢
        rw [List.filter_cons, if_neg, k3]
        rw [← h3]
        simp only [decide_eq_true_eq]
        show ¬ Axis.index axes c = _
        rw [hx]
        simp only [Except.ok.injEq, Option.some.injEq]
        intro e
        exact hn.1 (e ▸ List.mem_map_of_mem (f := (·.index)) m)

/-- what a bin-by-bin copy of `items` gives -/
theorem refill_dense [RDefault V] [FillWith V D] (hl : LawfulAxis axes n) (ha : Addresses axes n pick) {items : List (Item (Axis.Interval A) D)}
    (hok : ∀ it ∈ items, it.index < n ∧ Axis.bin axes it.index = .ok (some it.bin)) (hn : (items.map (·.index)).Nodup)
    {dst : VecHistogram A V} (hnew : VecHistogram.new axes = .ok dst) (hz : ∀ it ∈ items, (FillWith.fillWith it.value (RDefault.dflt : V)).2 = none) :
    (dst.callAll (refill pick items)).2 = none ∧ (dst.callAll (refill pick items)).1.Ok n ∧ (dst.callAll (refill pick items)).1.axes = axes ∧
    (∀ it ∈ items, (dst.callAll (refill pick items)).1.valueAtIndex it.index =
      some (if (pick it.bin).isSome then (FillWith.fillWith it.value (RDefault.dflt : V)).1 else RDefault.dflt)) ∧
    ∀ i, i < n → (∀ it ∈ items, it.index ≠ i) → (dst.callAll (refill pick items)).1.valueAtIndex i = some RDefault.dflt := by
  have hnone : (dst.callAll (refill pick items)).2 = none := by
    cases hp : (dst.callAll (refill pick items)).2 with
    | none => rfl
    | some p =>
      exfalso
      obtain ⟨pre, c, post, h1, h2, -⟩ := (C28_until_panic dst _).2 p hp
      obtain ⟨it, m, k1, k2, k3⟩ := refill_prefix ha hok hn h1
      obtain ⟨o1, o2, o3⟩ := C28_dense hl hnew pre
      rw [← o2] at k1
      obtain ⟨⟨v, hv, -, hv2⟩, -⟩ := (C27_dense o1 c).2.2.1 it.index k1
      rw [o3, if_pos (hok it m).1, k3] at hv
      injection hv with hv
      rw [h2, ← hv, k2] at hv2
      exact absurd ((hz it m).symm.trans hv2.symm) (by simp)
  rw [(C28_until_panic dst _).1 hnone]
  obtain ⟨o1, o2, o3⟩ := C28_dense hl hnew (refill pick items)
  refine ⟨hnone, o1, o2, fun it m => ?_, fun i hi hni => ?_⟩
  · rw [o3, if_pos (hok it m).1, callsIn_refill ha hok, filter_index_nodup hn m]
    cases h : pick it.bin with
    | none => simp [refill, h, filledWith]
    | some c => simp [refill, h, filledWith, Call.on]
  · rw [o3, if_pos hi, callsIn_refill ha hok, List.filter_eq_nil_iff.2 (by simpa using hni)]
    rfl

theorem iter_items_spec {src : VecHistogram A D} (ok : src.Ok n) {items} (hi : src.iter = .ok items) :
    (∀ it ∈ items, it.index < n ∧ Axis.bin src.axes it.index = .ok (some it.bin)) ∧ (items.map (·.index)).Nodup ∧
    (∀ it ∈ items, src.valueAtIndex it.index = some it.value) ∧ ∀ i, i < n → ∃ it ∈ items, it.index = i := by
  obtain ⟨items', h1, h2, h3, -⟩ := C38_iter ok
  rw [hi] at h1; cases h1
  have key : ∀ i it, items[i]? = some it → i < n ∧ it.index = i ∧ Axis.bin src.axes i = .ok (some it.bin) ∧ src.valueAtIndex i = some it.value := by
    intro i it h
    have hin : i < n := by rw [← h2]; exact (List.getElem?_eq_some_iff.1 h).1
    obtain ⟨b, v, k1, k2, k3⟩ := h3 i hin
    rw [h] at k1; cases k1
    exact ⟨hin, rfl, k2, k3⟩
  refine ⟨fun it m => ?_, ?_, fun it m => ?_, fun i hi => ?_⟩
  · obtain ⟨i, h⟩ := List.mem_iff_getElem?.1 m
    obtain ⟨k1, k2, k3, -⟩ := key i it h
    rw [k2]; exact ⟨k1, k3⟩
  · have : items.map (·.index) = List.range n := by
      apply List.ext_getElem?
      intro i
      by_cases hi : i < n
      · obtain ⟨b, v, k1, -⟩ := h3 i hi
        rw [List.getElem?_map, k1, List.getElem?_range hi]; rfl
      · rw [List.getElem?_eq_none (by simp; omega), List.getElem?_eq_none (by simp; omega)]
    rw [this]; exact List.nodup_range
  · obtain ⟨i, h⟩ := List.mem_iff_getElem?.1 m
    obtain ⟨k1, k2, k3, k4⟩ := key i it h
    rw [k2]; exact k4
  · obtain ⟨b, v, k1, -⟩ := h3 i hi
    exact ⟨_, List.mem_of_getElem? k1, rfl⟩

/-- **C103 (copying with `fill_with`).** Walking over a dense histogram and filling a new one with the same axes, at the chosen coordinates and with the values met: this does not panic
(if filling a default value once does not), and every bin with a chosen coordinate holds a default value filled once, with the value of that bin; all others hold the default. -/
theorem C103_copy [RDefault V] [FillWith V D] {src : VecHistogram A D} (ok : src.Ok n) (ha : Addresses src.axes n pick)
    {dst : VecHistogram A V} (hnew : VecHistogram.new src.axes = .ok dst) (hz : ∀ v : D, (FillWith.fillWith v (RDefault.dflt : V)).2 = none) :
    ∃ items out, src.iter = .ok items ∧ dst.callAll (refill pick items) = (out, none) ∧ out.Ok n ∧ out.axes = src.axes ∧
      ∀ i b v, Axis.bin src.axes i = .ok (some b) → src.valueAtIndex i = some v →
        out.valueAtIndex i = some (if (pick b).isSome then (FillWith.fillWith v (RDefault.dflt : V)).1 else RDefault.dflt) := by
  obtain ⟨items, hi, -⟩ := C38_iter ok
  obtain ⟨k1, k2, k3, k4⟩ := iter_items_spec ok hi
  obtain ⟨r1, r2, r3, r4, -⟩ := refill_dense ok.lawful ha k1 k2 hnew (fun it _ => hz it.value)
  refine ⟨items, _, hi, Prod.ext rfl r1, r2, r3, fun i b v hb hv => ?_⟩
  have hin : i < n := by
    by_contra h
    rw [(ok.get_none (i := i)).2 (by omega)] at hv; cases hv
  obtain ⟨it, m, rfl⟩ := k4 i hin
  have e1 := (k1 it m).2.symm.trans hb
  have e2 := (k3 it m).symm.trans hv
  injection e1 with e1; injection e1 with e1; injection e2 with e2
  rw [r4 it m, e1, e2]

/-- **C103 (from a sparse histogram into a dense one).** The same; bins the sparse histogram has no value for hold the default. -/
theorem C103_copy_from_sparse [RDefault V] [FillWith V D] {src : HashHistogram A D} (ok : src.Ok n) (ha : Addresses src.axes n pick) (o : src.values.Order)
    {dst : VecHistogram A V} (hnew : VecHistogram.new src.axes = .ok dst) (hz : ∀ v : D, (FillWith.fillWith v (RDefault.dflt : V)).2 = none) :
    ∃ items out, src.iter o = .ok items ∧ dst.callAll (refill pick items) = (out, none) ∧ out.Ok n ∧ out.axes = src.axes ∧
      (∀ i b v, Axis.bin src.axes i = .ok (some b) → src.valueAtIndex i = some v →
        out.valueAtIndex i = some (if (pick b).isSome then (FillWith.fillWith v (RDefault.dflt : V)).1 else RDefault.dflt)) ∧
      ∀ i, i < n → src.valueAtIndex i = none → out.valueAtIndex i = some RDefault.dflt := by
  obtain ⟨items, hi, k2, k3, k4, -⟩ := C32_iter ok o
  have k1 : ∀ it ∈ items, it.index < n ∧ Axis.bin src.axes it.index = .ok (some it.bin) :=
    fun it m => ⟨ok.valid _ ((HMap.get_isSome _ _).1 ⟨_, (k3 it m).1⟩), (k3 it m).2⟩
  obtain ⟨r1, r2, r3, r4, r5⟩ := refill_dense ok.lawful ha k1 k2 hnew (fun it _ => hz it.value)
  refine ⟨items, _, hi, Prod.ext rfl r1, r2, r3, fun i b v hb hv => ?_, fun i hi hv => r5 i hi ?_⟩
  · obtain ⟨it, m, rfl, rfl⟩ := k4 i v hv
    have e1 := (k1 it m).2.symm.trans hb
    injection e1 with e1; injection e1 with e1
    rw [r4 it m, e1]
  · rintro it m rfl
    rw [(k3 it m).1] at hv; cases hv

/-- **C103 (into a sparse histogram).** Walking over a sparse histogram, in whatever order: the copy has a value exactly for the bins that have one in the source and a chosen
coordinate. -/
theorem C103_copy_sparse [RDefault V] [FillWith V D] {src : HashHistogram A D} (ok : src.Ok n) (ha : Addresses src.axes n pick) (o : src.values.Order)
    (hz : ∀ v : D, (FillWith.fillWith v (RDefault.dflt : V)).2 = none) :
    ∃ items out, src.iter o = .ok items ∧ (HashHistogram.new src.axes : HashHistogram A V).callAll (refill pick items) = (out, none) ∧ out.Ok n ∧ out.axes = src.axes ∧
      (∀ i, src.valueAtIndex i = none → out.valueAtIndex i = none) ∧
      ∀ i b v, Axis.bin src.axes i = .ok (some b) → src.valueAtIndex i = some v →
        out.valueAtIndex i = if (pick b).isSome then some (FillWith.fillWith v (RDefault.dflt : V)).1 else none := by
  obtain ⟨items, hi, k2, k3, k4, -⟩ := C32_iter ok o
  have k1 : ∀ it ∈ items, it.index < n ∧ Axis.bin src.axes it.index = .ok (some it.bin) :=
    fun it m => ⟨ok.valid _ ((HMap.get_isSome _ _).1 ⟨_, (k3 it m).1⟩), (k3 it m).2⟩
  have nok : (HashHistogram.new src.axes : HashHistogram A V).Ok n := ⟨ok.lawful, List.nodup_nil, fun i h => absurd (show i ∈ ([] : List Nat) from h) (by simp)⟩
  have hnone : ((HashHistogram.new src.axes : HashHistogram A V).callAll (refill pick items)).2 = none := by
    cases hp : ((HashHistogram.new src.axes : HashHistogram A V).callAll (refill pick items)).2 with
    | none => rfl
    | some p =>
      exfalso
      obtain ⟨pre, c, post, h1, h2, -⟩ := (C28_until_panic_sparse (HashHistogram.new src.axes : HashHistogram A V) _).2 p hp
      obtain ⟨it, m, l1, l2, l3⟩ := refill_prefix ha k1 k2 h1
      have o3 := C28_sparse (V := V) src.axes pre it.index
      rw [if_pos l3] at o3
      have ax : ((HashHistogram.new src.axes : HashHistogram A V).callAllCaught pre).axes = src.axes := HashHistogram.callAllCaught_axes ..
      rw [← ax] at l1
      have h3 := ((C27_sparse (nok.callAllCaught pre) c).2.2.1 it.index l1).2.1
      rw [h2, o3, l2] at h3
      exact absurd ((hz it.value).symm.trans h3.symm) (by simp)
  have o3 := C28_sparse (V := V) src.axes (refill pick items)
  refine ⟨items, (HashHistogram.new src.axes : HashHistogram A V).callAllCaught (refill pick items), hi, Prod.ext ((C28_until_panic_sparse _ _).1 hnone) hnone, ?_, HashHistogram.callAllCaught_axes .., fun i hv => ?_, fun i b v hb hv => ?_⟩
  · exact nok.callAllCaught _
  · rw [o3, if_pos]
    rw [callsIn_refill ha k1, List.filter_eq_nil_iff.2]
    · rfl
    · intro it m
      simp only [decide_eq_true_eq]
      rintro rfl
      rw [(k3 it m).1] at hv; cases hv
  · obtain ⟨it, m, rfl, rfl⟩ := k4 i v hv
    have e1 := (k1 it m).2.symm.trans hb
    injection e1 with e1; injection e1 with e1
    rw [o3, callsIn_refill ha k1, filter_index_nodup k2 m]
    subst e1
    cases h : pick it.bin with
    | none => simp [refill, h]
    | some c => simp [refill, h, filledWith, Call.on]

theorem assignBins_spec : ∀ {items : List (Item (Axis.Interval A) V)} {dst : VecHistogram A V}, dst.Ok n → Addresses dst.axes n pick →
    (∀ it ∈ items, it.index < n ∧ Axis.bin dst.axes it.index = .ok (some it.bin)) → (items.map (·.index)).Nodup →
    ∃ out, assignBins pick items dst = some out ∧ out.Ok n ∧ out.axes = dst.axes ∧
      (∀ it ∈ items, out.valueAtIndex it.index = if (pick it.bin).isSome then some it.value else dst.valueAtIndex it.index) ∧
      ∀ i, (∀ it ∈ items, it.index ≠ i) → out.valueAtIndex i = dst.valueAtIndex i
  | [], dst, ok, _, _, _ => ⟨dst, rfl, ok, rfl, fun _ h => absurd h (by simp), fun _ _ => rfl⟩
  | it :: items, dst, ok, ha, hok, hn => by
    rw [List.map_cons, List.nodup_cons] at hn
    obtain ⟨h1, h2⟩ := hok it (List.mem_cons_self ..)
    have hfresh : ∀ it' ∈ items, it'.index ≠ it.index := fun it' m e => hn.1 (e ▸ List.mem_map_of_mem (f := (·.index)) m)
    cases hp : pick it.bin with
    | none =>
      obtain ⟨out, k1, k2, k3, k4, k5⟩ := assignBins_spec ok ha (fun it' m => hok it' (List.mem_cons_of_mem _ m)) hn.2
      refine ⟨out, by simp only [assignBins, hp]; exact k1, k2, k3, ?_, fun i hi => k5 i fun it' m => hi it' (List.mem_cons_of_mem _ m)⟩
      intro it' m
      rcases List.mem_cons.1 m with rfl | m
      · rw [hp]; exact k5 _ hfresh
      · exact k4 it' m
    | some c =>
      have hx := ha it.index it.bin c h1 h2 hp
      obtain ⟨v, hv⟩ := ok.get h1
      obtain ⟨dst', e1, e2, e3, e4, e5⟩ := (C38_value_at_index_mut ok it.index (fun _ => (it.value, none))).2 v hv
      have e6 : dst.valueMut c (fun _ => (it.value, none)) = .ok (some (dst', none)) := by
        rw [(C38_value_mut c _).1 it.index hx, e1]
      obtain ⟨out, k1, k2, k3, k4, k5⟩ := assignBins_spec e3 (e2 ▸ ha) (fun it' m => e2 ▸ hok it' (List.mem_cons_of_mem _ m)) hn.2
      refine ⟨out, by simp only [assignBins, hp, e6]; exact k1, k2, k3.trans e2, ?_, ?_⟩
      · intro it' m
        rcases List.mem_cons.1 m with rfl | m
        · rw [k5 _ hfresh, e4, hp]; rfl
        · rw [k4 it' m, e5 _ (hfresh it' m)]
      · intro i hi
        rw [k5 i fun it' m => hi it' (List.mem_cons_of_mem _ m), e5 i fun e => hi it (List.mem_cons_self ..) e.symm]

/-- **C103 (copying with `value_mut`).** Walking over a dense histogram and assigning the values met through `value_mut` of another histogram with the same axes, at the chosen
coordinates: `value_mut` always gives a place, and afterwards the bins with a chosen coordinate have the values of the source and the others those they had. For every type of values. -/
theorem C103_assign {src dst : VecHistogram A V} (ok : src.Ok n) (okd : dst.Ok n) (hax : dst.axes = src.axes) (ha : Addresses src.axes n pick) :
    ∃ items out, src.iter = .ok items ∧ assignBins pick items dst = some out ∧ out.Ok n ∧ out.axes = src.axes ∧
      ∀ i b, Axis.bin src.axes i = .ok (some b) → i < n →
        out.valueAtIndex i = if (pick b).isSome then src.valueAtIndex i else dst.valueAtIndex i := by
  obtain ⟨items, hi, -⟩ := C38_iter ok
  obtain ⟨k1, k2, k3, k4⟩ := iter_items_spec ok hi
  obtain ⟨out, r1, r2, r3, r4, -⟩ := assignBins_spec okd (hax ▸ ha) (hax ▸ k1) k2
  refine ⟨items, out, hi, r1, r2, r3.trans hax, fun i b hb hin => ?_⟩
  obtain ⟨it, m, rfl⟩ := k4 i hin
  have e1 := (k1 it m).2.symm.trans hb
  injection e1 with e1; injection e1 with e1
  rw [r4 it m, e1, k3 it m]

/-- **C103 (integers).** A copy of a histogram of integers with `fill_with`: nothing overflows and the bins with a chosen coordinate have the values of the source. -/
theorem C103_copy_int {τ : IntTy} {src dst : VecHistogram A (MInt τ)} (ok : src.Ok n) (ha : Addresses src.axes n pick) (hnew : VecHistogram.new src.axes = .ok dst) :
    ∃ items out, src.iter = .ok items ∧ dst.callAll (refill pick items) = (out, none) ∧
      ∀ i b, i < n → Axis.bin src.axes i = .ok (some b) → out.valueAtIndex i = if (pick b).isSome then src.valueAtIndex i else some RDefault.dflt := by
  have h0 : ∀ v : MInt τ, FillWith.fillWith v (RDefault.dflt : MInt τ) = (v, none) := fun v => MInt.fill_zero v
  obtain ⟨items, out, h1, h2, -, -, h3⟩ := C103_copy ok ha hnew (fun v => by rw [h0])
  refine ⟨items, out, h1, h2, fun i b hi hb => ?_⟩
  obtain ⟨v, hv⟩ := ok.get hi
  rw [h3 i b v hb hv, h0, hv]
  split <;> rfl

/-- **C103 (floats).** The same for floats, where a negative zero becomes a positive one. -/
theorem C103_copy_float {F : FFmt} {src dst : VecHistogram A (Flt F)} (ok : src.Ok n) (ha : Addresses src.axes n pick) (hnew : VecHistogram.new src.axes = .ok dst) :
    ∃ items out, src.iter = .ok items ∧ dst.callAll (refill pick items) = (out, none) ∧
      ∀ i b v, i < n → Axis.bin src.axes i = .ok (some b) → src.valueAtIndex i = some v →
        out.valueAtIndex i = some (if (pick b).isSome then (if v = Flt.zero true then Flt.zero false else v) else Flt.zero false) := by
  have h0 : ∀ v : Flt F, FillWith.fillWith v (RDefault.dflt : Flt F) = (if v = Flt.zero true then Flt.zero false else v, none) := fun v => Flt.fill_zero v
  obtain ⟨items, out, h1, h2, -, -, h3⟩ := C103_copy ok ha hnew (fun v => by rw [h0])
  refine ⟨items, out, h1, h2, fun i b v hi hb hv => ?_⟩
  rw [h3 i b v hb hv, h0]
  rfl

end
/-! ## The built-in axes -/

section
variable [cfg : Cfg]

/-- **C103 (variable-width axes).** On a `Variable` axis with distinct edges every bin but the underflow bin is addressed by its start. -/
theorem C103_start_variable {T : Type} [POrd T] [LawfulPOrd T] [StdLib] {edges : List T} {a : Variable T} (hnew : Variable.new edges = .ok (.ok a))
    (hmem : edges.length + 1 < usizeSize) (hd : edges.Pairwise (fun x y => POrd.eq x y = false)) : Addresses a (edges.length + 1) startOf := by
  refine C103_inside (C78_exact (C51_variable hnew hmem hd)) fun i b c hi hb hc => ?_
  have hb : a.bin i = .ok (some b) := hb
  obtain ⟨h2, hcmp, p1, ok1⟩ := Variable.new_ok hnew
  obtain ⟨-, ⟨e0, -, -, b0⟩, ⟨eN, hN, -, bN⟩, bm, -⟩ := C13_variable_bins hnew hmem
  have hself : ∀ {k : Nat} {s : T}, a.binEdges[k]? = some s → POrd.eq s s = true ∧ POrd.le s s = true := by
    intro k s hk
    have := hcmp s (p1.mem_iff.1 (List.mem_of_getElem? hk))
    refine ⟨this, ?_⟩
    obtain ⟨u, e1, e2⟩ := LawfulPOrd.eq_iff.1 this
    exact LawfulPOrd.le_iff.2 ⟨u, u, e1, e2, le_rfl⟩
  rcases Nat.eq_zero_or_pos i with rfl | hpos
  · rw [b0] at hb; cases hb; cases hc
  by_cases hl : i = edges.length
  · subst hl
    rw [bN] at hb; cases hb; cases hc
    exact hself hN
  · obtain ⟨k, rfl⟩ : ∃ k, i = k + 1 := ⟨i - 1, by omega⟩
    obtain ⟨s, e, h1, h2, h3⟩ := bm k (by omega)
    rw [h3] at hb; cases hb; cases hc
    refine ⟨(hself h1).1, (hself h1).2, ?_⟩
    have hle : POrd.le c e = true := by
      have := (C10_variable_new_sorts edges).2 a hnew
      obtain ⟨l1, rfl⟩ := List.getElem?_eq_some_iff.1 h1
      obtain ⟨l2, rfl⟩ := List.getElem?_eq_some_iff.1 h2
      exact List.pairwise_iff_getElem.1 this.2 k (k + 1) l1 l2 (by omega)
    have hne : POrd.eq c e = false := by
      have hsym : Std.Symm (fun x y : T => POrd.eq x y = false) := ⟨fun x y h => by
        rw [← Bool.not_eq_true] at h ⊢
        intro h'
        obtain ⟨u, e1, e2⟩ := LawfulPOrd.eq_iff.1 h'
        exact h (LawfulPOrd.eq_iff.2 ⟨u, e2, e1⟩)⟩
      have := (p1.pairwise_iff (fun {x y} h => hsym.symm x y h)).2 hd
      obtain ⟨l1, rfl⟩ := List.getElem?_eq_some_iff.1 h1
      obtain ⟨l2, rfl⟩ := List.getElem?_eq_some_iff.1 h2
      exact List.pairwise_iff_getElem.1 this k (k + 1) l1 l2 (by omega)
    obtain ⟨u, v, e1, e2, e3⟩ := LawfulPOrd.le_iff.1 hle
    refine LawfulPOrd.lt_iff.2 ⟨u, v, e1, e2, lt_of_le_of_ne e3 ?_⟩
    rintro rfl
    rw [LawfulPOrd.eq_iff.2 ⟨u, e1, e2⟩] at hne; cases hne

/-- **C103 (uniform axes of integers).** Every bin but the underflow bin is addressed by its start. -/
theorem C103_start_uniform_int {τ : IntTy} {num : Nat} {low step : MInt τ} {a : Uniform (MInt τ)} (hnew : Uniform.withStepSize num low step = .ok (.ok a))
    (hfit : Cfg.checked = false → (num : ℤ) * step.val ≤ τ.max ∧ low.val + num * step.val ≤ τ.max)
    (hnum : num + 2 < usizeSize) (hbin : (num : ℤ) * (num * step.val) ≤ τ.max) : Addresses a (num + 2) (startOf (T := MInt τ)) := by
  refine C103_inside (C78_exact (C51_uniform_int hnew hfit hnum hbin)) fun i b c hi hb hc => ⟨trivial, ?_⟩
  have hb : a.bin i = .ok (some b) := hb
  obtain ⟨-, -, hs, -⟩ := Uniform.withStepSize_ok hnew hfit
  obtain ⟨-, b0, ⟨high, hhigh, blast⟩, bmid, -⟩ := C02_uniform_int_bins_partial hnew hfit hnum
  rcases Nat.eq_zero_or_pos i with rfl | hipos
  · rw [b0] at hb; cases hb; cases hc
  · obtain ⟨k, rfl⟩ : ∃ k, i = k + 1 := ⟨i - 1, by omega⟩
    by_cases hk : k = num
    · subst hk
      rw [blast] at hb; cases hb; cases hc
      show @POrd.le (MInt τ) _ c c = true
      rw [MInt.le_iff]; simp
    · have hkn : k < num := by omega
      have hle : ((k : ℤ) + 1) * (num * step.val) ≤ τ.max := by
        refine le_trans (mul_le_mul_of_nonneg_right ?_ (by positivity)) hbin
        exact_mod_cast hkn
      obtain ⟨s, e, hs', he, hbk⟩ := bmid k hkn hle
      rw [hbk] at hb; cases hb; cases hc
      show @POrd.le (MInt τ) _ c c = true ∧ @POrd.lt (MInt τ) _ c e = true
      rw [MInt.le_iff, MInt.lt_iff, hs', he]
      simp; linarith

/-- the category of a bin; nothing is chosen for the overflow bin -/
def categoryOf {T : Type} : SingleValueBinInterval T → Option T
  | .Bin v => some v
  | .Overflow => none

/-- **C103 (category axes).** Every bin but the overflow bin is addressed by its category. -/
theorem C103_category {T : Type} [DecidableEq T] (values : List T) (hd : values.Nodup) (hmem : values.length + 1 < usizeSize) :
    Addresses (Category.new values) (values.length + 1) categoryOf := by
  refine C103_inside (C78_exact (C51_category values hd hmem)) fun i b c hi hb hc => ⟨trivial, ?_⟩
  cases b with
  | Bin v => cases hc; rfl
  | Overflow => cases hc

variable {F : FFmt}

omit cfg in
/-- the computed middle of an interval is close to the middle -/
theorem centre_err {s e : Flt F} (hs : s.isFin) (he : e.isFin) {M : ℚ} (h1 : |s.val| ≤ 9 / 8 * M) (h2 : |e.val| ≤ 9 / 8 * M) (hu : F.u ≤ 1 / 48) (hM : pow2 F.emin ≤ M)
    (hmax : 4 * M ≤ F.maxFin) : (Flt.div (Flt.add s e) (Flt.ofRat 2)).isFin ∧ |(Flt.div (Flt.add s e) (Flt.ofRat 2)).val - (s.val + e.val) / 2| ≤ 4 * (F.u * M) := by
  have hu0 := F.u_pos
  have hM0 : 0 < M := lt_of_lt_of_le (pow2_pos _) hM
  have heta : F.eta ≤ F.u * M := by rw [F.eta_eq, mul_comm]; exact mul_le_mul_of_nonneg_left hM hu0.le
  obtain ⟨t1, t2⟩ := Flt.ofNat_spec (F := F) (n := 2) (by
    calc 2 = 2 ^ 1 := rfl
      _ ≤ 2 ^ F.p := Nat.pow_le_pow_right (by omega) (by have := F.p_ge; omega))
  push_cast at t1 t2
  have huM : F.u * M ≤ 1 / 48 * M := mul_le_mul_of_nonneg_right hu hM0.le
  have hsum : |s.val + e.val| ≤ 9 / 4 * M := (abs_add_le _ _).trans (by linarith)
  obtain ⟨f1, v1⟩ := (Flt.add_rounds hs he).fin_of (by linarith)
  have r1 := F.rs_err (s.val + e.val)
  rw [← v1] at r1
  have r1' : |(Flt.add s e).val - (s.val + e.val)| ≤ 13 / 4 * (F.u * M) := by
    have : |s.val + e.val| * F.u ≤ 9 / 4 * M * F.u := mul_le_mul_of_nonneg_right hsum hu0.le
    linarith
  have hsum2 : |(Flt.add s e).val| ≤ 5 / 2 * M := by
    have := abs_add_le ((Flt.add s e).val - (s.val + e.val)) (s.val + e.val)
    rw [sub_add_cancel] at this
    linarith
  have hq : |(Flt.add s e).val / 2| ≤ 5 / 4 * M := by rw [abs_div, abs_two]; linarith
  obtain ⟨f2, v2⟩ := (Flt.div_rounds f1 t1 (by rw [t2]; norm_num)).fin_of (by rw [t2]; linarith)
  rw [t2] at v2
  have r2 := F.rs_err ((Flt.add s e).val / 2)
  rw [← v2] at r2
  refine ⟨f2, ?_⟩
  have e1 : |(Flt.add s e).val / 2| * F.u ≤ 5 / 4 * M * F.u := mul_le_mul_of_nonneg_right hq hu0.le
  have e2 := abs_le.1 r1'
  have e3 := abs_le.1 r2
  rw [abs_le]
  constructor <;> linarith [e2.1, e2.2, e3.1, e3.2]

/-- the centres are inside the bins of an axis with wide enough bins whose edges are as computed by `Uniform` -/
theorem centre_inside {a : Uniform (Flt F)} {num : ℕ} {M κ : ℚ} (hn0 : (0 : ℚ) < num) (ed : ℕ → Flt F)
    (b0 : a.bin 0 = .ok (some (.Underflow a.low))) (bN : a.bin (num + 1) = .ok (some (.Overflow a.high)))
    (eb : ∀ i, i < num → a.bin (i + 1) = .ok (some (.Bin (ed i) (ed (i + 1)))))
    (ev : ∀ i, i ≤ num → (ed i).isFin ∧ |(ed i).val - (a.low.val + i * ((a.high.val - a.low.val) / num))| ≤ 6 * (F.u * M))
    (hM : pow2 F.emin ≤ M) (hMe : M = |a.low.val| + |a.high.val|) (hlt : a.low.val < a.high.val) (hmax : 4 * M ≤ F.maxFin) (hκ : 17 ≤ κ)
    (hd : num * ((2 * κ + 20) * (F.u * M)) < a.high.val - a.low.val) (hn1 : (1 : ℚ) ≤ num) :
    ∀ i b c, i < num + 2 → Axis.bin a i = .ok (some b) → centre b = some c → c ≠ .nan ∧ BinInterval.Inside (F := F) (κ * (F.u * M)) b c := by
  intro i b c hi hb hc
  have hb : a.bin i = .ok (some b) := hb
  have hu0 := F.u_pos
  have hM0 : 0 < M := lt_of_lt_of_le (pow2_pos _) hM
  have hE0 : 0 < F.u * M := mul_pos hu0 hM0
  have hR : a.high.val - a.low.val ≤ M := by rw [hMe]; have := neg_abs_le a.low.val; have := le_abs_self a.high.val; linarith
  have hu : F.u ≤ 1 / 48 := by
    by_contra h
    have h54 : 54 * (F.u * M) ≤ num * ((2 * κ + 20) * (F.u * M)) := by
      calc 54 * (F.u * M) ≤ (2 * κ + 20) * (F.u * M) := mul_le_mul_of_nonneg_right (by linarith) hE0.le
        _ = 1 * ((2 * κ + 20) * (F.u * M)) := (one_mul _).symm
        _ ≤ num * ((2 * κ + 20) * (F.u * M)) := mul_le_mul_of_nonneg_right hn1 (by nlinarith)
    have : 1 / 48 * M < F.u * M := mul_lt_mul_of_pos_right (not_le.1 h) hM0
    linarith
  have hwid : (2 * κ + 20) * (F.u * M) < (a.high.val - a.low.val) / num := by rw [lt_div_iff₀ hn0]; linarith
  rcases Nat.eq_zero_or_pos i with rfl | hpos
  · rw [b0] at hb; cases hb; cases hc
  by_cases hN : i = num + 1
  · subst hN; rw [bN] at hb; cases hb; cases hc
  obtain ⟨k, rfl⟩ : ∃ k, i = k + 1 := ⟨i - 1, by omega⟩
  rw [eb k (by omega)] at hb
  cases hb
  have hcd : Flt.div (Flt.add (ed k) (ed (k + 1))) (Flt.ofRat 2) = c := by injection hc
  have bound : ∀ j, j ≤ num → (ed j).isFin ∧ |(ed j).val| ≤ 9 / 8 * M := by
    intro j hj
    obtain ⟨f, h⟩ := ev j hj
    refine ⟨f, ?_⟩
    have hj0 : 0 ≤ (j : ℚ) * ((a.high.val - a.low.val) / num) := mul_nonneg (by positivity) (div_nonneg (by linarith) hn0.le)
    have hj1 := FFmt.frac_le (k := j) (n := num) hn0 hj (show 0 ≤ a.high.val - a.low.val by linarith)
    have huM : F.u * M ≤ 1 / 48 * M := mul_le_mul_of_nonneg_right hu hM0.le
    have h := abs_le.1 h
    have l1 := neg_abs_le a.low.val
    have l2 := le_abs_self a.high.val
    have l3 := abs_nonneg a.low.val
    have l4 := abs_nonneg a.high.val
    rw [abs_le]
    constructor <;> linarith [h.1, h.2]
  obtain ⟨f1, g1⟩ := bound k (by omega)
  obtain ⟨f2, g2⟩ := bound (k + 1) (by omega)
  obtain ⟨f, herr⟩ := centre_err f1 f2 g1 g2 hu hM hmax
  rw [hcd] at f herr
  have y1 := abs_le.1 (ev k (by omega)).2
  have y2 := abs_le.1 (ev (k + 1) (by omega)).2
  push_cast at y2
  have herr := abs_le.1 herr
  refine ⟨by rintro rfl; exact f, f, ?_, ?_⟩ <;> linarith [y1.1, y1.2, y2.1, y2.2, herr.1, herr.2]

/-- **C103 (`Uniform::new`, floats).** On a float axis as in C78 whose bins are wider than 54 rounding errors of the bounds, the computed centre of every bin but the flow bins is
counted in that bin. (The start of a bin need not be: `C103_counterexample_start`.) -/
theorem C103_centre_uniform {num : Nat} {low high : Flt F} {a : Uniform (Flt F)} (hnew : Uniform.new num low high = .ok (.ok a))
    (hl : low.isFin) (hh : high.isFin) (hn : num + 2 < usizeSize) (hp : num < 2 ^ (F.p - 1))
    (hw : num * pow2 F.emin ≤ |high.val - low.val|) (hs : 4 * (num * (|low.val| + |high.val|)) ≤ F.maxFin)
    (hd : num * (54 * pow2 (-(F.p : ℤ)) * (|low.val| + |high.val|)) < |high.val - low.val|) : Addresses a (num + 2) (centre (F := F)) := by
  obtain ⟨sane, hnum, hM⟩ := Uniform.new_sane hnew hl hh hp hw hs
  obtain ⟨b0, bN, -, ed, eb, ev, -, -⟩ := C47_float_bins hnew hl hh hn hp hw hs
  have hn1 : (1 : ℚ) ≤ num := by rw [← hnum]; exact sane.numQ
  have hn0 : (0 : ℚ) < num := by linarith
  have hM0 : 0 ≤ |low.val| + |high.val| := by positivity
  have hE0 : 0 ≤ F.u * (|low.val| + |high.val|) := mul_nonneg F.u_pos.le hM0
  have se : ∀ n : ℚ, n * pow2 (-(F.p : ℤ)) * (|low.val| + |high.val|) = n * (F.u * (|low.val| + |high.val|)) := by intro n; unfold FFmt.u; ring
  have hR : |high.val - low.val| ≤ |low.val| + |high.val| := by have := abs_sub high.val low.val; linarith
  refine C103_inside (C78_uniform hnew hl hh hn hp hw hs (lt_of_le_of_lt ?_ hd)) ?_
  · rw [se, se]
    exact mul_le_mul_of_nonneg_left (by linarith) hn0.le
  · rw [se]
    refine centre_inside hn0 ed b0 bN eb (fun i hi => by rw [← se]; exact ev i hi) ?_ hM.symm sane.lt ?_ le_rfl ?_ hn1
    · refine le_trans (le_trans ?_ hw) hR
      exact le_mul_of_one_le_left (pow2_pos _).le hn1
    · refine le_trans ?_ hs
      exact mul_le_mul_of_nonneg_left (le_mul_of_one_le_left hM0 hn1) (by norm_num)
    · rw [se, Uniform.Sane.range_abs hnew hl hh hp hw hs] at hd
      norm_num at hd ⊢
      exact hd

/-- **C103 (`Uniform::with_step_size`, floats).** -/
theorem C103_centre_uniform_step {num : Nat} {low step : Flt F} {a : Uniform (Flt F)} (hnew : Uniform.withStepSize num low step = .ok (.ok a))
    (hl : low.isFin) (hs : step.isFin) (hh : a.high.isFin) (hn : num + 2 < usizeSize) (hp : num < 2 ^ (F.p - 1))
    (hw : num * pow2 F.emin ≤ a.high.val - low.val) (hsm : 4 * (num * (|low.val| + |a.high.val|)) ≤ F.maxFin)
    (hd : num * (58 * pow2 (-(F.p : ℤ)) * (|low.val| + |a.high.val|)) < a.high.val - low.val) : Addresses a (num + 2) (centre (F := F)) := by
  obtain ⟨hnum, elow, estep, num_pos, hs0, herr⟩ := Uniform.step_facts hnew hl hs hh hp
  have hn1 : (1 : ℚ) ≤ num := by exact_mod_cast num_pos
  have hn0 : (0 : ℚ) < num := by linarith
  have hR0 : 0 < a.high.val - low.val := lt_of_lt_of_le (mul_pos hn0 (pow2_pos _)) hw
  obtain ⟨b, hb, b1, b2, b3⟩ : ∃ b, Uniform.new num low a.high = .ok (.ok b) ∧ b.num = a.num ∧ b.low = a.low ∧ b.high = a.high := by
    refine ⟨⟨num, low, a.high, Flt.div (Flt.sub a.high low) (Flt.ofRat num)⟩, ?_, hnum.symm, elow.symm, rfl⟩
    rw [Uniform.new_flt, if_neg (by omega), if_neg, if_neg]
    · rw [Flt.gt_fin hl hh, decide_eq_true_iff]; linarith
    · rw [Flt.eq_fin hl hh, decide_eq_true_iff]; linarith
  have hw' : num * pow2 F.emin ≤ |a.high.val - low.val| := by rwa [abs_of_pos hR0]
  obtain ⟨e0, eN, -, ed, eb, ev, -, -⟩ := C47_float_bins hb hl hh hn hp hw' hsm
  rw [Uniform.bin_new b1 b2 b3] at e0 eN eb
  rw [b2, b3] at *
  have hM0 : 0 ≤ |low.val| + |a.high.val| := by positivity
  have hE0 : 0 ≤ F.u * (|low.val| + |a.high.val|) := mul_nonneg F.u_pos.le hM0
  have se : ∀ n : ℚ, n * pow2 (-(F.p : ℤ)) * (|low.val| + |a.high.val|) = n * (F.u * (|low.val| + |a.high.val|)) := by intro n; unfold FFmt.u; ring
  have hR : a.high.val - low.val ≤ |low.val| + |a.high.val| := by have := neg_abs_le low.val; have := le_abs_self a.high.val; linarith
  refine C103_inside (C78_uniform_step hnew hl hs hh hn hp hw hsm (lt_of_le_of_lt ?_ hd)) ?_
  · rw [se, se]
    exact mul_le_mul_of_nonneg_left (by linarith) hn0.le
  · rw [se]
    refine centre_inside hn0 ed e0 eN eb (fun i hi => by rw [← se]; exact ev i hi) ?_ (by rw [elow]) (by rw [elow]; linarith) ?_ (by norm_num) ?_ hn1
    · refine le_trans (le_trans ?_ hw) hR
      exact le_mul_of_one_le_left (pow2_pos _).le hn1
    · refine le_trans ?_ hsm
      exact mul_le_mul_of_nonneg_left (le_mul_of_one_le_left hM0 hn1) (by norm_num)
    · rw [se] at hd
      rw [elow]
      norm_num at hd ⊢
      exact hd

/-- **C103 (`UniformCyclic::new`, floats).** -/
theorem C103_centre_cyclic {num : Nat} {low high : Flt F} {a : UniformCyclic (Flt F)} (hnew : UniformCyclic.new num low high = .ok (.ok a))
    (hl : low.isFin) (hh : high.isFin) (hn : num + 2 < usizeSize) (hp : num < 2 ^ (F.p - 1))
    (hw : num * pow2 F.emin ≤ |high.val - low.val|) (hs : 4 * (num * (|low.val| + |high.val|)) ≤ F.maxFin)
    (hd : num * (72 * pow2 (-(F.p : ℤ)) * (|low.val| + |high.val|)) < |high.val - low.val|) : Addresses a num (centre (F := F)) := by
  have hu := UniformCyclic.new_inv hnew
  obtain ⟨sane, hnum, hM⟩ := Uniform.new_sane hu hl hh hp hw hs
  obtain ⟨b0, bN, -, ed, eb, ev, -, -⟩ := C47_float_bins hu hl hh hn hp hw hs
  have hn1 : (1 : ℚ) ≤ num := by rw [← hnum]; exact sane.numQ
  have hn0 : (0 : ℚ) < num := by linarith
  obtain ⟨M, hMd⟩ : ∃ M, M = |low.val| + |high.val| := ⟨_, rfl⟩
  have hM0 : 0 ≤ M := by rw [hMd]; positivity
  have hE0 : 0 ≤ F.u * M := mul_nonneg F.u_pos.le hM0
  have se : ∀ n : ℚ, n * pow2 (-(F.p : ℤ)) * (|low.val| + |high.val|) = n * (F.u * M) := by intro n; rw [hMd]; unfold FFmt.u; ring
  have hR : |high.val - low.val| ≤ M := by rw [hMd]; have := abs_sub high.val low.val; linarith
  have hran := Uniform.Sane.range_abs hu hl hh hp hw hs
  have hs' : 4 * M ≤ F.maxFin := by
    refine le_trans ?_ hs
    rw [← hMd]
    exact mul_le_mul_of_nonneg_left (le_mul_of_one_le_left hM0 hn1) (by norm_num)
  refine C103_inside (C78_uniform_cyclic hnew hl hh hn hp hw hs (lt_of_le_of_lt ?_ hd)) ?_
  · rw [se, se]
    exact mul_le_mul_of_nonneg_left (by linarith) hn0.le
  · intro i b c hi hb hc
    have hb1 : a.axis.axis.bin (i + 1) = .ok (some b) := by
      rw [← (C07_noflow_bin a.axis.axis i (by omega) (by omega)).1 (by omega)]; exact hb
    have hin := centre_inside (M := M) (κ := 26) hn0 ed b0 bN eb (fun i hi => by rw [← se]; exact ev i hi)
      ((le_mul_of_one_le_left (pow2_pos _).le hn1).trans (hw.trans hR)) (by rw [hMd]; exact hM.symm) sane.lt hs' (by norm_num)
      (by rw [se, hran] at hd; norm_num at hd ⊢; exact hd) hn1 (i + 1) b c (by omega) hb1 hc
    have hbe := eb i hi
    rw [hb1] at hbe
    cases hbe
    obtain ⟨-, f, k1, k2⟩ := hin
    have y1 := abs_le.1 (ev i (by omega)).2
    have y2 := abs_le.1 (ev (i + 1) (by omega)).2
    rw [se] at y1 y2
    have hlt := sane.lt
    have j1 : 0 ≤ (i : ℚ) * ((a.axis.axis.high.val - a.axis.axis.low.val) / num) := mul_nonneg (by positivity) (div_nonneg (by linarith) hn0.le)
    have j2 := FFmt.frac_le (k := i + 1) (n := num) hn0 hi (show 0 ≤ a.axis.axis.high.val - a.axis.axis.low.val by linarith)
    rw [hran] at hR
    have hdist : |c.val - a.axis.axis.low.val| ≤ M := by
      rw [abs_le]
      constructor <;> linarith [y1.1, y2.2]
    refine ⟨⟨f, ?_⟩, 0, ?_⟩
    · show |c.val - a.axis.axis.low.val| ≤ _
      linarith
    · have hseam : seamError F 22 a.axis.axis.low.val a.axis.axis.high.val c.val ≤ 25 * (F.u * M) := by
        unfold seamError
        rw [hM, ← hMd]
        have : F.u * (3 * |c.val - a.axis.axis.low.val| + 22 * M) ≤ F.u * (3 * M + 22 * M) := mul_le_mul_of_nonneg_left (by linarith) F.u_pos.le
        unfold FFmt.u at this ⊢
        linarith
      have hseam' : seamError F 22 a.low.val a.high.val c.val ≤ 25 * (F.u * M) := hseam
      push_cast
      constructor <;> linarith

/-- **C103 (without under- and overflow).** -/
theorem C103_noflow {T : Type} [RNum T] {u : Uniform T} {pick : BinInterval T → Option T} (hl : LawfulAxis u (u.num + 2)) (ha : Addresses u (u.num + 2) pick) :
    Addresses (UniformNoFlow.mk u) u.num pick := by
  intro i b c hi hb hc
  have hn : u.num + 2 < usizeSize := hl.fits
  have hb' : u.bin (i + 1) = .ok (some b) := by
    rw [← (C07_noflow_bin u i (by omega) (by omega)).1 hi]; exact hb
  have := ha (i + 1) b c (by omega) hb' hc
  have h1 := (C07_noflow_index u hn c (i + 1) this (by omega)).2.1 i
  exact h1.2 ⟨rfl, hi⟩
end

section
/-- **C103 counterexample.** The start of a bin of a float axis may be counted in the bin before: on `Uniform::new(10, 0.0, 1.0)` of `f64` the fourth bin starts at 0.3,
and looking 0.3 up gives the third bin. -/
theorem C103_counterexample_start : ∃ a e, @Uniform.new F64 dbg64 _ 10 (f64 0) (f64 1) = .ok (.ok a) ∧ @Uniform.bin F64 dbg64 _ a 4 = .ok (some (.Bin (f64 0.3) e)) ∧
    @Uniform.index F64 dbg64 _ a (f64 0.3) = .ok (some 3) := by
  refine ⟨⟨10, f64 0, f64 1, Flt.div (f64 1) (f64 10)⟩, @Uniform.fedge _ ⟨10, f64 0, f64 1, Flt.div (f64 1) (f64 10)⟩ 4, ?_, ?_, ?_⟩ <;> decide +kernel
end
end NdHist
