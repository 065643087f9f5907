import Verif.SpecGroup
import Verif.Props.Axes
import Verif.Props.Content
/-!
# C95: how axes are grouped does not matter
-/
set_option linter.unusedSectionVars false
namespace NdHist

theorem cellOf_append (ns ms : List Nat) (N : Nat) : cellOf N (ns ++ ms) = cellOf N ns ++ cellOf (N / ns.prod) ms := by
  induction ns generalizing N with
  | nil => simp [cellOf]
  | cons n ns ih => simp [cellOf, ih, Nat.div_div_eq_div_mul]

theorem cellNumber_append {ns is : List Nat} (h : InGrid ns is) (ms js : List Nat) : cellNumber 1 (ns ++ ms) (is ++ js) = cellNumber 1 ns is + ns.prod * cellNumber 1 ms js := by
  induction ns generalizing is with
  | nil => cases h; simp [cellNumber]
  | cons n ns ih =>
    cases h with
    | cons hi hr => rename_i i is; rw [List.cons_append, List.cons_append, cellNumber_cons, cellNumber_cons, ih hr, List.prod_cons]; ring

theorem cellOf_mod {ns : List Nat} (N M : Nat) : cellOf (N % (ns.prod * M)) ns = cellOf N ns := by
  induction ns generalizing N M with
  | nil => rfl
  | cons n ns ih =>
    rw [cellOf, cellOf, List.prod_cons, Nat.mul_assoc, Nat.mod_mul_right_mod, Nat.mod_mul_right_div_self, ih]

section
variable [cfg : Cfg]

theorem TupLawful.split {hs : List AxTy} : ∀ {ts : List AxTy} {t : Tup (hs ++ ts)} {ns : List Nat}, TupLawful t ns →
    ∃ ns₁ ns₂, ns = ns₁ ++ ns₂ ∧ TupLawful (Tup.split hs t).1 ns₁ ∧ TupLawful (Tup.split hs t).2 ns₂ := by
  induction hs with
  | nil => intro ts t ns h; exact ⟨[], ns, rfl, rfl, h⟩
  | cons x hs ih =>
    intro ts t ns h
    obtain ⟨a, as⟩ := t
    obtain ⟨n, ns', rfl, h1, h2⟩ := h
    obtain ⟨m₁, m₂, rfl, h3, h4⟩ := ih h2
    exact ⟨n :: m₁, m₂, rfl, ⟨n, m₁, rfl, h1, h3⟩, h4⟩

/-- what `indices` does with the first axes and then with the others -/
theorem indices_split {hs : List AxTy} : ∀ {ts : List AxTy} (t : Tup (hs ++ ts)) (c : Coords (hs ++ ts)),
    t.indices c = (do
      match ← (Tup.split hs t).1.indices (Coords.split hs c).1 with
      | none => return none
      | some is =>
        match ← (Tup.split hs t).2.indices (Coords.split hs c).2 with
        | none => return none
        | some js => return some (is ++ js)) := by
  induction hs with
  | nil =>
    intro ts t c
    show Tup.indices (ts := ts) t c = (Tup.indices (ts := ts) t c >>= fun o => match o with
      | none => pure none
      | some js => pure (some ([] ++ js)))
    rcases Tup.indices (ts := ts) t c with p | (_ | _) <;> rfl
  | cons x hs ih =>
    intro ts t c
    obtain ⟨a, as⟩ := t
    obtain ⟨c, cs⟩ := c
    show Tup.indices (ts := x :: (hs ++ ts)) (a, as) (c, cs) = _
    rw [Tup.indices_cons, ih as cs]
    show _ = (do
      match ← Tup.indices (ts := x :: hs) (a, (Tup.split hs as).1) (c, (Coords.split hs cs).1) with
      | none => return none
      | some is =>
        match ← (Tup.split hs as).2.indices (Coords.split hs cs).2 with
        | none => return none
        | some js => return some (is ++ js))
    rw [Tup.indices_cons]
    rcases h1 : Axis.index a c with p | o
    · rfl
    cases o with
    | none => rfl
    | some i =>
      simp only [Res.ok_bind]
      rcases h2 : (Tup.split hs as).1.indices (Coords.split hs cs).1 with p | o
      · rfl
      cases o with
      | none => rfl
      | some is =>
        simp only [Res.ok_bind, Res.pure_eq]
        rcases h3 : (Tup.split hs as).2.indices (Coords.split hs cs).2 with p | o
        · rfl
        cases o <;> rfl

/-- what `bins` does with the first axes and then with the others, if no axis panics -/
theorem bins_split {hs : List AxTy} : ∀ {ts : List AxTy} (t : Tup (hs ++ ts)) {ns is js : List Nat} (_ : InGrid ns is) (_ : TupLawful (Tup.split hs t).1 ns)
    {b : Intervals (hs ++ ts)}, t.bins (is ++ js) = .ok (some b) → (Tup.split hs t).1.bins is = .ok (some (Intervals.split hs b).1) ∧ (Tup.split hs t).2.bins js = .ok (some (Intervals.split hs b).2) := by
  induction hs with
  | nil =>
    intro ts t ns is js hg hl b hb
    simp only [TupLawful] at hl; subst hl; cases hg
    exact ⟨rfl, hb⟩
  | cons x hs ih =>
    intro ts t ns is js hg hl b hb
    obtain ⟨a, as⟩ := t
    obtain ⟨n, ns', rfl, h1, h2⟩ := hl
    obtain ⟨b, bs⟩ := b
    cases hg with
    | cons hi hr =>
      rename_i i is
      have hb : Tup.bins (ts := x :: (hs ++ ts)) (a, as) (i :: (is ++ js)) = .ok (some (b, bs)) := hb
      rw [Tup.bins_cons] at hb
      obtain ⟨b0, hb0⟩ := h1.bin_some i hi
      change Axis.bin a i = _ at hb0
      rw [hb0] at hb
      simp only [Res.ok_bind] at hb
      rcases h3 : Tup.bins (ts := hs ++ ts) as (is ++ js) with p | o
      · rw [h3] at hb; cases hb
      rw [h3] at hb
      cases o with
      | none => cases hb
      | some bs' =>
        simp only [Res.ok_bind, Res.pure_eq, Except.ok.injEq] at hb
        have hb' : b0 = b ∧ bs' = bs := Prod.mk.inj (Option.some.inj hb)
        obtain ⟨rfl, rfl⟩ := hb'
        obtain ⟨h4, h5⟩ := ih as hr h2 h3
        refine ⟨?_, h5⟩
        show Tup.bins (ts := x :: hs) (a, (Tup.split hs as).1) (i :: is) = _
        rw [Tup.bins_cons, hb0]
        simp only [Res.ok_bind]
        rw [h4]
        rfl

/-- a tuple as an axis -/
theorem tuple_axis {t₀ t₁ : AxTy} {ts : List AxTy} {item : Tup (t₀ :: t₁ :: ts)} {ns : List Nat} (hl : TupLawful item ns) (hpos : ∀ n ∈ ns, 0 < n) (hfit : ns.prod < usizeSize)
    {a : AxesTuple t₀ t₁ ts} (ha : AxesTuple.fromTuple item = .ok a) :
    LawfulAxis a ns.prod ∧ (∀ c, a.index c = (item.indices c).map (Option.map (cellNumber 1 ns))) ∧ ∀ N, a.bin N = item.bins (cellOf N ns) := by
  refine ⟨C25_lawful_tuple hl hpos hfit ha, ?_, ?_⟩
  all_goals
    obtain ⟨a', ha', h1, h2⟩ := C20_construct hl hpos hfit
    rw [ha] at ha'
    simp only [Except.ok.injEq] at ha'
    subst ha'
  · intro c
    unfold AxesTuple.index
    rw [h1, h2]
    rcases h : item.indices c with p | o
    · rfl
    cases o with
    | none => rfl
    | some is =>
      simp only [Res.ok_bind]
      rw [flatten_ok ((indices_some.1 h).inGrid hl) (by have := hl.length; intro h; rw [h] at this; simp at this) hfit]
      rfl
  · intro N
    unfold AxesTuple.bin
    rw [h1, numBinsList_ok hl]
    simp only [Res.ok_bind]
    rw [digits_ok hpos hl.fits]
    rfl

/-- what a grouping does: the groups have as many bins, and the bins of the grouped tuple are numbered in the same way -/
theorem Grouping.main {ts us : List AxTy} (G : Grouping ts us) : ∀ {t : Tup ts} {ns : List Nat}, TupLawful t ns → (∀ n ∈ ns, 0 < n) → ns.prod < usizeSize →
    ∃ t' ns', G.build t = .ok t' ∧ TupLawful t' ns' ∧ ns'.prod = ns.prod ∧ (∀ n ∈ ns', 0 < n) ∧
      (∀ c, t'.indices (G.coords c) = (t.indices c).map (Option.map fun is => cellOf (cellNumber 1 ns is) ns')) ∧
      ∀ N b, t.bins (cellOf N ns) = .ok (some b) → t'.bins (cellOf N ns') = .ok (some (G.intervals b)) := by
  induction G with
  | nil =>
    intro t ns hl _ _
    simp only [TupLawful] at hl; subst hl
    exact ⟨(), [], rfl, rfl, rfl, by simp, fun c => rfl, fun N b _ => rfl⟩
  | @keep x ts us rest ih =>
    intro t ns hl hpos hfit
    obtain ⟨a, as⟩ := t
    obtain ⟨n, ns', rfl, h1, h2⟩ := hl
    have hn := hpos n (by simp)
    have hpos2 : ∀ m ∈ ns', 0 < m := fun m hm => hpos m (by simp [hm])
    rw [List.prod_cons] at hfit
    obtain ⟨t', ms, e1, e2, e3, e4, e5, e6⟩ := ih h2 hpos2 (lt_of_le_of_lt (Nat.le_mul_of_pos_left _ hn) hfit)
    refine ⟨(a, t'), n :: ms, ?_, ⟨n, ms, rfl, h1, e2⟩, by simp [e3], by simpa using ⟨hn, e4⟩, ?_, ?_⟩
    · show (do let r ← rest.build as; return (a, r)) = _
      rw [e1]; rfl
    · rintro ⟨c, cs⟩
      show Tup.indices (ts := x :: us) (a, t') (c, rest.coords cs) = _
      rw [Tup.indices_cons, Tup.indices_cons, e5]
      rcases h : Axis.index a c with p | o
      · rfl
      cases o with
      | none => rfl
      | some i =>
        simp only [Res.ok_bind]
        rcases h' : as.indices cs with p | o
        · rfl
        cases o with
        | none => rfl
        | some is =>
          have hi := h1.index_lt _ _ h
          simp only [Except.map, Option.map, Res.ok_bind, Res.pure_eq, cellOf, cellNumber_cons]
          rw [Nat.add_mul_mod_self_left, Nat.mod_eq_of_lt hi, Nat.add_mul_div_left _ _ hn, Nat.div_eq_of_lt hi, Nat.zero_add]
    · rintro N ⟨b, bs⟩ hb
      rw [cellOf, Tup.bins_cons] at hb
      rw [cellOf]
      show Tup.bins (ts := x :: us) (a, t') _ = .ok (some (b, rest.intervals bs))
      rw [Tup.bins_cons]
      obtain ⟨b0, hb0⟩ := h1.bin_some (N % n) (Nat.mod_lt _ hn)
      change Axis.bin a (N % n) = _ at hb0
      rw [hb0] at hb ⊢
      simp only [Res.ok_bind] at hb ⊢
      rcases h3 : Tup.bins as (cellOf (N / n) ns') with p | o
      · rw [h3] at hb; cases hb
      rw [h3] at hb
      cases o with
      | none => cases hb
      | some bs' =>
        simp only [Res.ok_bind, Res.pure_eq, Except.ok.injEq] at hb
        have hb' : b0 = b ∧ bs' = bs := Prod.mk.inj (Option.some.inj hb)
        obtain ⟨rfl, rfl⟩ := hb'
        rw [e6 _ _ h3]
        rfl
  | @group g₀ g₁ gs hs ts us inner rest ih1 ih2 =>
    intro t ns hl hpos hfit
    obtain ⟨ns₁, ns₂, rfl, h1, h2⟩ := hl.split
    have hp1 : ∀ m ∈ ns₁, 0 < m := fun m hm => hpos m (by simp [hm])
    have hp2 : ∀ m ∈ ns₂, 0 < m := fun m hm => hpos m (by simp [hm])
    rw [List.prod_append] at hfit
    have hq1 := prod_pos' hp1
    have hq2 := prod_pos' hp2
    have hf1 : ns₁.prod < usizeSize := lt_of_le_of_lt (Nat.le_mul_of_pos_right _ hq2) hfit
    obtain ⟨t₁, ms₁, e1, e2, e3, e4, e5, e6⟩ := ih1 h1 hp1 hf1
    obtain ⟨t₂, ms₂, d1, d2, d3, d4, d5, d6⟩ := ih2 h2 hp2 (lt_of_le_of_lt (Nat.le_mul_of_pos_left _ hq1) hfit)
    obtain ⟨a, ha, -, -⟩ := C20_construct e2 e4 (by rw [e3]; exact hf1)
    obtain ⟨al, ai, ab⟩ := tuple_axis e2 e4 (by rw [e3]; exact hf1) ha
    rw [e3] at al
    refine ⟨(a, t₂), ns₁.prod :: ms₂, ?_, ⟨_, _, rfl, al, d2⟩, by simp [d3], by intro m hm; rcases List.mem_cons.1 hm with rfl | hm; exacts [hq1, d4 m hm], ?_, ?_⟩
    · show (do let i ← inner.build (Tup.split hs t).1; let a ← AxesTuple.fromTuple i; let r ← rest.build (Tup.split hs t).2; return (a, r)) = _
      rw [e1]; simp only [Res.ok_bind]; rw [ha]; simp only [Res.ok_bind]; rw [d1]; rfl
    · intro c
      show Tup.indices (ts := nestTy g₀ g₁ gs :: us) (a, t₂) (inner.coords (Coords.split hs c).1, rest.coords (Coords.split hs c).2) = _
      rw [indices_split t c]
      change (do
        match ← a.index (inner.coords (Coords.split hs c).1) with
        | none => return none
        | some i =>
          match ← t₂.indices (rest.coords (Coords.split hs c).2) with
          | none => return none
          | some is => return some (i :: is)) = _
      rw [ai, e5, d5]
      rcases h : (Tup.split hs t).1.indices (Coords.split hs c).1 with p | o
      · rfl
      cases o with
      | none => rfl
      | some is =>
        have hg := (indices_some.1 h).inGrid h1
        simp only [Except.map, Option.map, Res.ok_bind]
        rcases h' : (Tup.split hs t).2.indices (Coords.split hs c).2 with p | o
        · rfl
        cases o with
        | none => rfl
        | some js =>
          have hlt := cellNumber_lt hg
          simp only [Res.ok_bind, Res.pure_eq, cellOf, cellNumber_append hg]
          rw [Nat.add_mul_mod_self_left, Nat.mod_eq_of_lt hlt, Nat.add_mul_div_left _ _ hq1, Nat.div_eq_of_lt hlt, Nat.zero_add, cellNumber_cellOf (by rw [e3]; exact hlt)]
    · intro N b hb
      rw [cellOf_append] at hb
      obtain ⟨b1, b2⟩ := bins_split t (cellOf_inGrid hp1 N) h1 hb
      show Tup.bins (ts := nestTy g₀ g₁ gs :: us) (a, t₂) (cellOf N (ns₁.prod :: ms₂)) = .ok (some (inner.intervals (Intervals.split hs b).1, rest.intervals (Intervals.split hs b).2))
      rw [cellOf]
      have h3 : a.bin (N % ns₁.prod) = .ok (some (inner.intervals (Intervals.split hs b).1)) := by
        rw [ab]
        apply e6
        rw [← Nat.mul_one ns₁.prod, cellOf_mod]; exact b1
      refine (Tup.bins_cons (t := nestTy g₀ g₁ gs) (ts := us) a t₂ _ _).trans ?_
      have h3 : @Axis.bin (nestTy g₀ g₁ gs).A _ (nestTy g₀ g₁ gs).inst a (N % ns₁.prod) = .ok (some (inner.intervals (Intervals.split hs b).1)) := h3
      rw [h3, d6 _ _ b2]
      rfl
  | @group1 g hs ts us inner rest ih1 ih2 =>
    intro t ns hl hpos hfit
    obtain ⟨ns₁, ns₂, rfl, h1, h2⟩ := hl.split
    have hp1 : ∀ m ∈ ns₁, 0 < m := fun m hm => hpos m (by simp [hm])
    have hp2 : ∀ m ∈ ns₂, 0 < m := fun m hm => hpos m (by simp [hm])
    rw [List.prod_append] at hfit
    have hq1 := prod_pos' hp1
    have hq2 := prod_pos' hp2
    have hf1 : ns₁.prod < usizeSize := lt_of_le_of_lt (Nat.le_mul_of_pos_right _ hq2) hfit
    obtain ⟨t₁, ms₁, e1, e2, e3, e4, e5, e6⟩ := ih1 h1 hp1 hf1
    obtain ⟨t₂, ms₂, d1, d2, d3, d4, d5, d6⟩ := ih2 h2 hp2 (lt_of_le_of_lt (Nat.le_mul_of_pos_left _ hq1) hfit)
    obtain ⟨x, u⟩ := t₁
    obtain ⟨n, l, rfl, l1, l2⟩ := e2
    simp only [TupLawful] at l2; subst l2
    simp only [List.prod_cons, List.prod_nil, Nat.mul_one] at e3
    subst e3
    have ha : AxesTuple1.fromTuple x = .ok ⟨x, [ns₁.prod]⟩ := by
      unfold AxesTuple1.fromTuple; rw [l1.numBins]; rfl
    have al : LawfulAxis (⟨x, [ns₁.prod]⟩ : AxesTuple1 g.A) ns₁.prod := by
      obtain ⟨a', ha', hl'⟩ := C25_lawful_tuple1 l1
      rw [ha] at ha'; cases ha'; exact hl'
    refine ⟨(⟨x, [ns₁.prod]⟩, t₂), ns₁.prod :: ms₂, ?_, ⟨_, _, rfl, al, d2⟩, by simp [d3], by intro m hm; rcases List.mem_cons.1 hm with rfl | hm; exacts [hq1, d4 m hm], ?_, ?_⟩
    · show (do let i ← inner.build (Tup.split hs t).1; let a ← AxesTuple1.fromTuple i.1; let r ← rest.build (Tup.split hs t).2; return (a, r)) = _
      rw [e1]; simp only [Res.ok_bind]
      change (do let a ← AxesTuple1.fromTuple x; let r ← rest.build (Tup.split hs t).2; return (a, r)) = _
      rw [ha]; simp only [Res.ok_bind]; rw [d1]; rfl
    · intro c
      rw [indices_split t c]
      have e5 := e5 (Coords.split hs c).1
      rcases hcc : inner.coords (Coords.split hs c).1 with ⟨c1, u1⟩
      show Tup.indices (ts := nestTy1 g :: us) (_, t₂) ((inner.coords (Coords.split hs c).1).1, rest.coords (Coords.split hs c).2) = _
      rw [hcc] at e5 ⊢
      rw [Tup.indices_cons] at e5
      change (do
        match ← Axis.index x c1 with
        | none => return none
        | some i =>
          match ← t₂.indices (rest.coords (Coords.split hs c).2) with
          | none => return none
          | some is => return some (i :: is)) = _
      rw [d5]
      rcases h : (Tup.split hs t).1.indices (Coords.split hs c).1 with p | o
      · rw [h] at e5
        rcases hx : Axis.index x c1 with p' | o'
        · rw [hx] at e5; exact e5
        · rw [hx] at e5; cases o' <;> cases e5
      cases o with
      | none =>
        rw [h] at e5
        rcases hx : Axis.index x c1 with p' | o'
        · rw [hx] at e5; cases e5
        · rw [hx] at e5; cases o' with
          | none => rfl
          | some i => cases e5
      | some is =>
        have hg := (indices_some.1 h).inGrid h1
        have hlt := cellNumber_lt hg
        rw [h] at e5
        have hx : Axis.index x c1 = .ok (some (cellNumber 1 ns₁ is)) := by
          rcases hx : Axis.index x c1 with p' | o'
          · rw [hx] at e5; cases e5
          · rw [hx] at e5; cases o' with
            | none => cases e5
            | some i =>
              simp only [Res.ok_bind, Tup.indices, Res.pure_eq, Except.map, Option.map, Except.ok.injEq, Option.some.injEq, cellOf, List.cons.injEq, and_true] at e5
              rw [e5, Nat.mod_eq_of_lt hlt]
        rw [hx]
        simp only [Except.map, Option.map, Res.ok_bind]
        rcases h' : (Tup.split hs t).2.indices (Coords.split hs c).2 with p | o
        · rfl
        cases o with
        | none => rfl
        | some js =>
          simp only [Res.ok_bind, Res.pure_eq, cellOf, cellNumber_append hg]
          rw [Nat.add_mul_mod_self_left, Nat.mod_eq_of_lt hlt, Nat.add_mul_div_left _ _ hq1, Nat.div_eq_of_lt hlt, Nat.zero_add]
    · intro N b hb
      rw [cellOf_append] at hb
      obtain ⟨b1, b2⟩ := bins_split t (cellOf_inGrid hp1 N) h1 hb
      show Tup.bins (ts := nestTy1 g :: us) (_, t₂) (cellOf N (ns₁.prod :: ms₂)) = .ok (some ((inner.intervals (Intervals.split hs b).1).1, rest.intervals (Intervals.split hs b).2))
      rw [cellOf]
      have h3 := e6 N _ b1
      rw [cellOf, Tup.bins_cons] at h3
      refine (Tup.bins_cons (t := nestTy1 g) (ts := us) _ t₂ _ _).trans ?_
      rw [d6 _ _ b2]
      rcases hx : Axis.bin x (N % ns₁.prod) with p' | o'
      · rw [hx] at h3; cases h3
      · rw [hx] at h3; cases o' with
        | none => cases h3
        | some b0 =>
          simp only [Res.ok_bind, Tup.bins, Res.pure_eq, Except.ok.injEq] at h3
          have h3 : (b0, ()) = inner.intervals (Intervals.split hs b).1 := Option.some.inj h3
          show Except.ok (some (b0, rest.intervals (Intervals.split hs b).2)) = _
          rw [← h3]
          rfl

/-- Grouping a tuple: the inner tuples and the outer one can be built, and the resulting axis numbers the same bins in the same way. -/
theorem C95_tuple {t₀ t₁ u₀ u₁ : AxTy} {ts us : List AxTy} (G : Grouping (t₀ :: t₁ :: ts) (u₀ :: u₁ :: us)) {item : Tup (t₀ :: t₁ :: ts)} {ns : List Nat} (hl : TupLawful item ns)
    (hpos : ∀ n ∈ ns, 0 < n) (hfit : ns.prod < usizeSize) {a : AxesTuple t₀ t₁ ts} (ha : AxesTuple.fromTuple item = .ok a) :
    ∃ item' a', G.build item = .ok item' ∧ AxesTuple.fromTuple item' = .ok a' ∧ SameBins a a' G.coords G.intervals := by
  obtain ⟨t', ns', e1, e2, e3, e4, e5, e6⟩ := G.main hl hpos hfit
  have hfit' : ns'.prod < usizeSize := by rw [e3]; exact hfit
  obtain ⟨a', ha', -, -⟩ := C20_construct e2 e4 hfit'
  obtain ⟨l1, i1, b1⟩ := tuple_axis hl hpos hfit ha
  obtain ⟨l2, i2, b2⟩ := tuple_axis e2 e4 hfit' ha'
  refine ⟨t', a', e1, ha', ⟨?_, ?_, ?_⟩⟩
  · rw [l2.numBins, l1.numBins, e3]
  · intro c
    show a'.index (G.coords c) = a.index c
    rw [i2, i1, e5]
    rcases h : item.indices c with p | o
    · rfl
    cases o with
    | none => rfl
    | some is =>
      have hg := (indices_some.1 h).inGrid hl
      simp only [Except.map, Option.map]
      rw [cellNumber_cellOf (by rw [e3]; exact cellNumber_lt hg)]
  · intro N
    show a'.bin N = (a.bin N).map _
    obtain ⟨bs, hbs, -⟩ := bins_ok hl (cellOf_inGrid hpos N)
    rw [b2, b1, e6 _ _ hbs, hbs]
    rfl

/-- an axis and the tuple of this one axis -/
theorem C95_single {X : Type} [Axis X] {x : X} {a : AxesTuple1 X} (ha : AxesTuple1.fromTuple x = .ok a) : SameBins x a id id := by
  have : a.axis = x := by
    unfold AxesTuple1.fromTuple at ha
    rcases h : Axis.numBins x with p | n
    · rw [h] at ha; cases ha
    · rw [h] at ha; cases ha; rfl
  subst this
  exact ⟨rfl, fun _ => rfl, fun i => by
    show Axis.bin a.axis i = _
    rcases Axis.bin a.axis i with p | (_ | b) <;> rfl⟩

/-- so tuples of one component, and groups in groups, can be followed step by step -/
theorem C95_trans {A A' A'' : Type} [Axis A] [Axis A'] [Axis A''] {a : A} {a' : A'} {a'' : A''} {f : Axis.Coordinate A → Axis.Coordinate A'} {g : Axis.Interval A → Axis.Interval A'}
    {f' : Axis.Coordinate A' → Axis.Coordinate A''} {g' : Axis.Interval A' → Axis.Interval A''} (h : SameBins a a' f g) (h' : SameBins a' a'' f' g') : SameBins a a'' (f' ∘ f) (g' ∘ g) :=
  ⟨h'.numBins.trans h.numBins, fun c => (h'.index _).trans (h.index c), fun i => by
    rw [h'.bin, h.bin]; rcases Axis.bin a i with p | (_ | b) <;> rfl⟩

/-- every coordinate of the grouped axis is that of exactly one coordinate of the flat axis -/
theorem C95_coords {ts us : List AxTy} (G : Grouping ts us) : Function.Bijective G.coords := by
  have split_bij : ∀ (hs ts : List AxTy), Function.Bijective (Coords.split hs (ts := ts)) := by
    intro hs ts
    induction hs with
    | nil => exact ⟨fun x y h => (Prod.mk.inj h).2, fun ⟨u, x⟩ => ⟨x, rfl⟩⟩
    | cons x hs ih =>
      constructor
      · rintro ⟨a, as⟩ ⟨b, bs⟩ h
        have h := Prod.mk.inj h
        have h1 := Prod.mk.inj h.1
        have : as = bs := ih.1 (Prod.ext h1.2 h.2)
        rw [h1.1, this]
      · rintro ⟨⟨a, as⟩, bs⟩
        obtain ⟨y, hy⟩ := ih.2 (as, bs)
        refine ⟨(a, y), ?_⟩
        show ((a, (Coords.split hs y).1), (Coords.split hs y).2) = _
        rw [hy]
        rfl
  induction G with
  | nil => exact ⟨fun _ _ _ => rfl, fun _ => ⟨(), rfl⟩⟩
  | keep rest ih =>
    constructor
    · rintro ⟨a, as⟩ ⟨b, bs⟩ h
      have h := Prod.mk.inj h
      rw [h.1, ih.1 h.2]
    · rintro ⟨a, as⟩
      obtain ⟨y, hy⟩ := ih.2 as
      exact ⟨(a, y), by show (a, Grouping.coords _ y) = _; rw [hy]⟩
  | @group g₀ g₁ gs hs ts us inner rest ih1 ih2 =>
    constructor
    · intro x y h
      have h := Prod.mk.inj h
      exact (split_bij hs ts).1 (Prod.ext (ih1.1 h.1) (ih2.1 h.2))
    · rintro ⟨a, as⟩
      obtain ⟨y1, h1⟩ := ih1.2 a
      obtain ⟨y2, h2⟩ := ih2.2 as
      obtain ⟨y, hy⟩ := (split_bij hs ts).2 (y1, y2)
      refine ⟨y, ?_⟩
      show (inner.coords (Coords.split hs y).1, rest.coords (Coords.split hs y).2) = _
      rw [hy, h1, h2]
  | @group1 g hs ts us inner rest ih1 ih2 =>
    constructor
    · intro x y h
      have h := Prod.mk.inj h
      exact (split_bij hs ts).1 (Prod.ext (ih1.1 (Prod.ext h.1 rfl)) (ih2.1 h.2))
    · rintro ⟨a, as⟩
      obtain ⟨y1, h1⟩ := ih1.2 (a, ())
      obtain ⟨y2, h2⟩ := ih2.2 as
      obtain ⟨y, hy⟩ := (split_bij hs ts).2 (y1, y2)
      refine ⟨y, ?_⟩
      show ((inner.coords (Coords.split hs y).1).1, rest.coords (Coords.split hs y).2) = _
      rw [hy, h1, h2]

section
variable {A A' V : Type} [Axis A] [Axis A'] {a : A} {a' : A'} {f : Axis.Coordinate A → Axis.Coordinate A'} {g : Axis.Interval A → Axis.Interval A'}

/-- `num_bins`, `indices`, `bins` and `iter` of the axis -/
theorem C95_axis_iter (hs : SameBins a a' f g) : Axis.indices a' = Axis.indices a ∧ Axis.bins a' = (Axis.bins a).map (List.map g) ∧
    Axis.iter a' = (Axis.iter a).map (List.map fun ib => (ib.1, g ib.2)) := by
  have e : Axis.indices a' = Axis.indices a := by unfold Axis.indices; rw [hs.numBins]
  refine ⟨e, ?_, ?_⟩
  · unfold Axis.bins
    rw [e]
    rcases Axis.indices a with p | l
    · rfl
    simp only [Res.ok_bind]
    induction l with
    | nil => rfl
    | cons i l ih =>
      rw [List.mapM_cons, List.mapM_cons, hs.bin]
      rcases Axis.bin a i with p | (_ | b)
      · rfl
      · rfl
      · simp only [Except.map, Option.map, Res.ok_bind, expect] at ih ⊢
        rw [ih]
        rcases List.mapM (m := Res) _ l with p | r <;> rfl
  · unfold Axis.iter
    rw [e]
    rcases Axis.indices a with p | l
    · rfl
    simp only [Res.ok_bind]
    induction l with
    | nil => rfl
    | cons i l ih =>
      rw [List.mapM_cons, List.mapM_cons, hs.bin]
      rcases Axis.bin a i with p | (_ | b)
      · rfl
      · rfl
      · simp only [Except.map, Option.map, Res.ok_bind, expect, Res.pure_eq] at ih ⊢
        rw [ih]
        rcases List.mapM (m := Res) _ l with p | r <;> rfl

/-- the new histogram has the same values -/
theorem C95_new [RDefault V] (hs : SameBins a a' f g) {h : VecHistogram A V} (hnew : VecHistogram.new a = .ok h) :
    h.axes = a ∧ ∃ h' : VecHistogram A' V, VecHistogram.new a' = .ok h' ∧ h'.axes = a' ∧ h'.values = h.values := by
  unfold VecHistogram.new at hnew ⊢
  rw [hs.numBins]
  rcases hn : Axis.numBins a with p | n
  · rw [hn] at hnew; cases hnew
  · rw [hn] at hnew; cases hnew
    exact ⟨rfl, _, rfl, rfl, rfl⟩

theorem same_valueMut {h : VecHistogram A V} {h' : VecHistogram A' V} (hs : SameBins h.axes h'.axes f g) (hv : h'.values = h.values) (c : Axis.Coordinate A) (u : Upd V) :
    (h'.valueMut (f c) u).map (Option.map fun r => (r.1.values, r.2)) = (h.valueMut c u).map (Option.map fun r => (r.1.values, r.2)) := by
  unfold VecHistogram.valueMut
  rw [hs.index]
  rcases Axis.index h.axes c with p | (_ | i)
  · rfl
  · rfl
  · simp only [Res.ok_bind, Res.pure_eq, Except.map, VecHistogram.valueAtIndexMut]
    rw [hv]
    rcases h.values[i]? with _ | _ <;> rfl

theorem same_call {h : VecHistogram A V} {h' : VecHistogram A' V} (hs : SameBins h.axes h'.axes f g) (hv : h'.values = h.values) (c : Call V (Axis.Coordinate A)) :
    (h'.call (c.mapCoord f)).1.values = (h.call c).1.values ∧ (h'.call (c.mapCoord f)).2 = (h.call c).2 := by
  have key : ∀ (c : Axis.Coordinate A) (u : Upd V), (match h'.valueMut (f c) u with | .error p => (h', some p) | .ok none => (h', none) | .ok (some r) => r).1.values =
        (match h.valueMut c u with | .error p => (h, some p) | .ok none => (h, none) | .ok (some r) => r).1.values ∧
      (match h'.valueMut (f c) u with | .error p => (h', some p) | .ok none => (h', none) | .ok (some r) => r).2 =
        (match h.valueMut c u with | .error p => (h, some p) | .ok none => (h, none) | .ok (some r) => r).2 := by
    intro c u
    have e := same_valueMut hs hv c u
    rcases h1 : h'.valueMut (f c) u with p | (_ | r) <;> rcases h2 : h.valueMut c u with p' | (_ | r') <;> rw [h1, h2] at e <;>
      simp only [Except.map, Option.map, Except.error.injEq, Except.ok.injEq, Option.some.injEq, Prod.mk.injEq, reduceCtorEq] at e
    · exact ⟨hv, by rw [e]⟩
    · exact ⟨hv, rfl⟩
    · exact e
  cases c with
  | fill c => exact key c _
  | fillWith c d => exact key c _
  | fillWithWeighted c d w => exact key c _

/-- Fills: the values stay the same, and a program panics at the same call with the same panic. -/
theorem C95_dense {h : VecHistogram A V} {h' : VecHistogram A' V} (hs : SameBins h.axes h'.axes f g) (hv : h'.values = h.values) (calls : List (Call V (Axis.Coordinate A))) :
    (h'.callAll (calls.map (Call.mapCoord f))).1.values = (h.callAll calls).1.values ∧ (h'.callAll (calls.map (Call.mapCoord f))).2 = (h.callAll calls).2 ∧
    (h'.callAllCaught (calls.map (Call.mapCoord f))).values = (h.callAllCaught calls).values := by
  induction calls generalizing h h' with
  | nil => exact ⟨hv, rfl, hv⟩
  | cons c calls ih =>
    obtain ⟨h1, h2⟩ := same_call hs hv c
    have hs' : SameBins (h.call c).1.axes (h'.call (c.mapCoord f)).1.axes f g := by rw [VecHistogram.call_axes, VecHistogram.call_axes]; exact hs
    obtain ⟨i1, i2, i3⟩ := ih hs' h1
    refine ⟨?_, ?_, i3⟩
    all_goals
      simp only [List.map_cons, VecHistogram.callAll]
      rcases e1 : h'.call (c.mapCoord f) with ⟨k1, p1⟩
      rcases e2 : h.call c with ⟨k2, p2⟩
      rw [e1, e2] at h1 h2
      rw [e1, e2] at i1 i2
      simp only at h1 h2 i1 i2
      subst h2
      cases p1
      · first | exact i1 | exact i2
      · first | exact h1 | rfl

/-- Reading and iterating: `value` at the regrouped coordinate, `iter` with the regrouped bins, and a loop over `iter_mut` whose body sees the regrouped bins. -/
theorem C95_dense_read {h : VecHistogram A V} {h' : VecHistogram A' V} (hs : SameBins h.axes h'.axes f g) (hv : h'.values = h.values) :
    (∀ c, h'.value (f c) = h.value c) ∧ h'.iter = h.iter.map (List.map fun it => ⟨it.index, g it.bin, it.value⟩) ∧
    ∀ body : Nat → Axis.Interval A' → Upd V, (h'.iterMut body).1.values = (h.iterMut fun i b => body i (g b)).1.values ∧ (h'.iterMut body).2 = (h.iterMut fun i b => body i (g b)).2 := by
  refine ⟨fun c => ?_, ?_, fun body => ?_⟩
  · unfold VecHistogram.value; rw [hs.index, hv]
  · unfold VecHistogram.iter
    rw [(C95_axis_iter hs).2.2]
    rcases Axis.iter h.axes with p | l
    · rfl
    simp only [Except.map, Res.ok_bind, VecHistogram.valueAtIndex, hv]
    induction l with
    | nil => rfl
    | cons i l ih =>
      rw [List.map_cons, List.mapM_cons, List.mapM_cons]
      simp only at ih ⊢
      rw [ih]
      rcases h.values[i.1]? with _ | v
      · rfl
      · simp only [expect, Res.ok_bind, Res.pure_eq]
        rcases List.mapM (m := Res) _ l with p | r <;> rfl
  · unfold VecHistogram.iterMut
    rw [hs.numBins, hv]
    rcases Axis.numBins h.axes with p | n
    · exact ⟨hv, rfl⟩
    have key : ∀ (F F' : Nat → Upd V) (l : List V), (∀ i v, F i v = F' i v) → updEach F 0 l = updEach F' 0 l := fun F F' l h => by
      rw [show F = F' from funext fun i => funext (h i)]
    have htail : h'.iterMutTail n = h.iterMutTail n := by
      simp only [VecHistogram.iterMutTail, hv, hs.bin]
      rcases Axis.bin h.axes h.values.length with p | (_ | b) <;> rfl
    simp only [htail]
    refine ⟨congrArg (fun r : List V × Option Panic => r.1 ++ _) (key _ _ _ fun i v => ?_), congrArg (fun r : List V × Option Panic => r.2.or _) (key _ _ _ fun i v => ?_)⟩ <;>
      (simp only [hs.bin]; rcases Axis.bin h.axes i with p | (_ | b) <;> rfl)

section
variable [RDefault V]
theorem same_call_sparse {h : HashHistogram A V} {h' : HashHistogram A' V} (hs : SameBins h.axes h'.axes f g) (hv : h'.values = h.values) (c : Call V (Axis.Coordinate A)) :
    (h'.call (c.mapCoord f)).1.values = (h.call c).1.values ∧ (h'.call (c.mapCoord f)).2 = (h.call c).2 := by
  have key : ∀ (c : Axis.Coordinate A) (u : Upd V),
      (match Axis.index h'.axes (f c) with
        | .error p => (h', some p)
        | .ok none => (h', none)
        | .ok (some index) => let r := HashHistogram.entryUpd h'.values index u; ({ h' with values := r.1 }, r.2)).1.values =
      (match Axis.index h.axes c with
        | .error p => (h, some p)
        | .ok none => (h, none)
        | .ok (some index) => let r := HashHistogram.entryUpd h.values index u; ({ h with values := r.1 }, r.2)).1.values ∧
      (match Axis.index h'.axes (f c) with
        | .error p => (h', some p)
        | .ok none => (h', none)
        | .ok (some index) => let r := HashHistogram.entryUpd h'.values index u; ({ h' with values := r.1 }, r.2)).2 =
      (match Axis.index h.axes c with
        | .error p => (h, some p)
        | .ok none => (h, none)
        | .ok (some index) => let r := HashHistogram.entryUpd h.values index u; ({ h with values := r.1 }, r.2)).2 := by
    intro c u
    rw [hs.index]
    rcases Axis.index h.axes c with p | (_ | i)
    · exact ⟨hv, rfl⟩
    · exact ⟨hv, rfl⟩
    · simp only; rw [hv]; exact ⟨rfl, rfl⟩
  cases c with
  | fill c => exact key c _
  | fillWith c d => exact key c _
  | fillWithWeighted c d w => exact key c _

/-- sparse histograms -/
theorem C95_sparse {h : HashHistogram A V} {h' : HashHistogram A' V} (hs : SameBins h.axes h'.axes f g) (hv : h'.values = h.values) (calls : List (Call V (Axis.Coordinate A))) :
    (h'.callAll (calls.map (Call.mapCoord f))).1.values = (h.callAll calls).1.values ∧ (h'.callAll (calls.map (Call.mapCoord f))).2 = (h.callAll calls).2 ∧
    (h'.callAllCaught (calls.map (Call.mapCoord f))).values = (h.callAllCaught calls).values := by
  induction calls generalizing h h' with
  | nil => exact ⟨hv, rfl, hv⟩
  | cons c calls ih =>
    obtain ⟨h1, h2⟩ := same_call_sparse hs hv c
    have hs' : SameBins (h.call c).1.axes (h'.call (c.mapCoord f)).1.axes f g := by rw [HashHistogram.call_axes, HashHistogram.call_axes]; exact hs
    obtain ⟨i1, i2, i3⟩ := ih hs' h1
    refine ⟨?_, ?_, i3⟩
    all_goals
      simp only [List.map_cons, HashHistogram.callAll]
      rcases e1 : h'.call (c.mapCoord f) with ⟨k1, p1⟩
      rcases e2 : h.call c with ⟨k2, p2⟩
      rw [e1, e2] at h1 h2
      rw [e1, e2] at i1 i2
      simp only at h1 h2 i1 i2
      subst h2
      cases p1
      · first | exact i1 | exact i2
      · first | exact h1 | rfl

/-- reading and iterating sparse histograms: whatever order the map is iterated in -/
theorem C95_sparse_read {h : HashHistogram A V} {h' : HashHistogram A' V} (hs : SameBins h.axes h'.axes f g) (hv : h'.values = h.values) :
    (∀ c, h'.value (f c) = h.value c) ∧
    ∀ (o : h.values.Order) (o' : h'.values.Order), o'.list = o.list →
      h'.iter o' = (h.iter o).map (List.map fun it => ⟨it.index, g it.bin, it.value⟩) ∧
      ∀ body : Nat → Axis.Interval A' → Upd V, (h'.iterMut o' body).1.values = (h.iterMut o fun i b => body i (g b)).1.values ∧
        (h'.iterMut o' body).2 = (h.iterMut o fun i b => body i (g b)).2 := by
  refine ⟨fun c => ?_, fun o o' ho => ⟨?_, fun body => ?_⟩⟩
  · unfold HashHistogram.value HashHistogram.valueAtIndex; rw [hs.index, hv]
  · unfold HashHistogram.iter
    rw [ho]
    generalize o.list = l
    induction l with
    | nil => rfl
    | cons i l ih =>
      rw [List.mapM_cons, List.mapM_cons, ih]
      simp only [hs.bin]
      rcases Axis.bin h.axes i.1 with p | (_ | b)
      · rfl
      · rfl
      · simp only [Except.map, Option.map, expect, Res.ok_bind, Res.pure_eq]
        rcases List.mapM (m := Res) _ l with p | r <;> rfl
  · unfold HashHistogram.iterMut
    have key : ∀ (F F' : Nat → Upd V) (l : List Nat) (m : HMap Nat V), (∀ i v, F i v = F' i v) → HashHistogram.updKeys F l m = HashHistogram.updKeys F' l m := fun F F' l m h => by
      rw [show F = F' from funext fun i => funext (h i)]
    rw [ho, hv]
    refine ⟨congrArg Prod.fst (key _ _ _ _ fun i v => ?_), congrArg Prod.snd (key _ _ _ _ fun i v => ?_)⟩ <;>
      (simp only [hs.bin]; rcases Axis.bin h.axes i with p | (_ | b) <;> rfl)
end
end
end

section
attribute [local instance] dbg64
/-- three axes one by one, and with parentheses around the first two -/
def exFlat : Tup [⟨Category String, inferInstance⟩, ⟨CategoryNoFlow Nat, inferInstance⟩, ⟨Category Nat, inferInstance⟩] := (Category.new ["a", "b"], CategoryNoFlow.new [10, 20], Category.new [7], ())
/-- `AxesTuple<(AxesTuple<(X, Y)>, Z)>` -/
def exGroups : Grouping [⟨Category String, inferInstance⟩, ⟨CategoryNoFlow Nat, inferInstance⟩, ⟨Category Nat, inferInstance⟩] [nestTy ⟨Category String, inferInstance⟩ ⟨CategoryNoFlow Nat, inferInstance⟩ [], ⟨Category Nat, inferInstance⟩] :=
  .group (hs := [⟨Category String, inferInstance⟩, ⟨CategoryNoFlow Nat, inferInstance⟩]) (.keep (.keep .nil)) (.keep .nil)

/-- `num_dim` counts the components of the outer tuple: it is the one thing in which the grouped axes differ (and so does the first line of the printed histogram). -/
theorem C95_counterexample_num_dim : ∃ a item' a', AxesTuple.fromTuple exFlat = .ok a ∧ exGroups.build exFlat = .ok item' ∧ AxesTuple.fromTuple item' = .ok a' ∧ Axis.numDim a = 3 ∧ Axis.numDim a' = 2 :=
  ⟨⟨exFlat, [3, 6, 12]⟩, (⟨(Category.new ["a", "b"], CategoryNoFlow.new [10, 20], ()), [3, 6]⟩, Category.new [7], ()),
    ⟨(⟨(Category.new ["a", "b"], CategoryNoFlow.new [10, 20], ()), [3, 6]⟩, Category.new [7], ()), [6, 12]⟩, rfl, rfl, rfl, rfl, rfl⟩
end
end NdHist
