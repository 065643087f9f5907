import Verif.Props.CyclicNear
/-!
# C78: the contents of float histograms are right up to rounding at the edges

C51 says what the bins of a histogram contain for axes that are exact. Uniform and cyclic axes of floats are not: the lookup of a coordinate and the edges of the
bins are computed with rounding. Here: such an axis still is faithful to *some* division of the coordinates that differs from the reported intervals only
within a few rounding errors of the edges, so that all theorems about histograms over faithful axes (C51, C52, C57, C58, C72, C74, C75) apply to it.
-/
namespace NdHist
open POrd RNum

/-! ## Vocabulary -/

/-- The bins of the axis count what their intervals contain, up to doubts at the edges: there is a division of the coordinates into bins the axis is faithful to,
where every bin contains the coordinates that are `inside` its interval beyond doubt and only such that are at least `near` it. -/
def RoughAxis [Cfg] {A : Type} [Axis A] (a : A) (n : Nat) (inside near : Axis.Interval A → Axis.Coordinate A → Prop) (dom : Axis.Coordinate A → Prop) : Prop :=
  ∃ covers, FaithfulAxis a n covers dom ∧
    (∀ i b c, i < n → Axis.bin a i = .ok (some b) → dom c → inside b c → covers b c) ∧ (∀ b c, covers b c → near b c)

section
variable [Cfg] {F : FFmt}

/-- in the interval and further than `ε` from the edges between bins; what is below the first or beyond the last edge is out of doubt -/
def BinInterval.Inside (ε : ℚ) : BinInterval (Flt F) → Flt F → Prop
  | .Underflow stop, c => POrd.lt c stop = true
  | .Overflow start, c => POrd.le start c = true
  | .Bin start stop, c => c.isFin ∧ start.val + ε < c.val ∧ c.val < stop.val - ε

/-- in the interval or at most `ε` away from it -/
def BinInterval.Near (ε : ℚ) : BinInterval (Flt F) → Flt F → Prop
  | .Underflow stop, c => POrd.lt c stop = true
  | .Overflow start, c => POrd.le start c = true ∨ (c.isFin ∧ start.val - ε ≤ c.val)
  | .Bin start stop, c => c.isFin ∧ start.val - ε ≤ c.val ∧ c.val ≤ stop.val + ε

/-- some whole number of turns of length `range` brings the coordinate into the interval and further than `ε c` from the edges -/
def BinInterval.InsideTurns (range : ℚ) (ε : ℚ → ℚ) : BinInterval (Flt F) → Flt F → Prop
  | .Bin start stop, c => ∃ k : ℤ, start.val + ε c.val < c.val - k * range ∧ c.val - k * range < stop.val - ε c.val
  | _, _ => False

/-- some whole number of turns of length `range` brings the coordinate into the interval or at most `ε c` away from it -/
def BinInterval.NearTurns (range : ℚ) (ε : ℚ → ℚ) : BinInterval (Flt F) → Flt F → Prop
  | .Bin start stop, c => ∃ k : ℤ, start.val - ε c.val ≤ c.val - k * range ∧ c.val - k * range ≤ stop.val + ε c.val
  | _, _ => False
end

section
variable [Cfg]

/-- each axis of the tuple is rough; `ns` are the numbers of bins -/
def TupRough : {ts : List AxTy} → Tup ts → List Nat → TupCovers ts → TupCovers ts → TupDom ts → Prop
  | [], _, ns, _, _, _ => ns = []
  | _ :: _, (a, as), ns, (ins, inss), (near, nears), (dom, doms) =>
    ∃ n ns', ns = n :: ns' ∧ RoughAxis a n ins near dom ∧ TupRough as ns' inss nears doms
end

/-! ## General facts -/

section
variable [cfg : Cfg]

/-- exact axes are rough ones -/
theorem C78_exact {A : Type} [Axis A] {a : A} {n : Nat} {covers : Axis.Interval A → Axis.Coordinate A → Prop} {dom : Axis.Coordinate A → Prop}
    (h : FaithfulAxis a n covers dom) : RoughAxis a n covers covers dom := ⟨covers, h, fun _ _ _ _ _ _ h => h, fun _ _ h => h⟩

/-- if no two bins have the same interval, an axis is faithful to the division of the coordinates into bins it makes -/
theorem RoughAxis.of_index {A : Type} [Axis A] {a : A} {n : Nat} {inside near : Axis.Interval A → Axis.Coordinate A → Prop} {dom : Axis.Coordinate A → Prop}
    (hl : LawfulAxis a n) (ht : ∀ c, dom c → IndexTotal a c)
    (hd : ∀ i j b, i < n → j < n → Axis.bin a i = .ok (some b) → Axis.bin a j = .ok (some b) → i = j)
    (h1 : ∀ i b c, i < n → Axis.bin a i = .ok (some b) → dom c → inside b c → Axis.index a c = .ok (some i))
    (h2 : ∀ i b c, i < n → Axis.bin a i = .ok (some b) → dom c → Axis.index a c = .ok (some i) → near b c) : RoughAxis a n inside near dom := by
  refine ⟨fun b c => dom c ∧ ∃ i, i < n ∧ Axis.bin a i = .ok (some b) ∧ Axis.index a c = .ok (some i), ⟨hl, ht, ?_⟩, ?_, ?_⟩
  · intro c hc i b hi hb
    constructor
    · exact fun h => ⟨hc, i, hi, hb, h⟩
    · rintro ⟨-, j, hj, hb', h⟩
      rw [hd i j b hi hj hb hb']; exact h
  · exact fun i b c hi hb hc h => ⟨hc, i, hi, hb, h1 i b c hi hb hc h⟩
  · rintro b c ⟨hc, i, hi, hb, h⟩
    exact h2 i b c hi hb hc h

theorem TupRough.faithful : {ts : List AxTy} → {as : Tup ts} → {ns : List Nat} → {ins near : TupCovers ts} → {dom : TupDom ts} → TupRough as ns ins near dom →
    ∃ cov, TupFaithful as ns cov dom ∧ (∀ is bs c, InGrid ns is → BinsOf as is bs → InDom dom c → CoversAll ins bs c → CoversAll cov bs c) ∧
      (∀ bs c, CoversAll cov bs c → CoversAll near bs c)
  | [], _, _, _, _, _, h => ⟨(), h, fun _ _ _ _ _ _ _ => trivial, fun _ _ _ => trivial⟩
  | _ :: _, (_, _), _, (_, _), (_, _), (_, _), ⟨n, ns', h1, ⟨cov, c1, c2, c3⟩, h3⟩ => by
    obtain ⟨covs, d1, d2, d3⟩ := h3.faithful
    refine ⟨(cov, covs), ⟨n, ns', h1, c1, d1⟩, ?_, ?_⟩
    · rintro is ⟨b, bs⟩ ⟨c, cs⟩ hg hb hd hi
      obtain ⟨i, is', rfl, hb1, hb2⟩ := hb
      subst h1
      obtain ⟨hlt, hg'⟩ := List.forall₂_cons.1 hg
      exact ⟨c2 i b c hlt hb1 hd.1 hi.1, d2 is' bs cs hg' hb2 hd.2 hi.2⟩
    · rintro ⟨b, bs⟩ ⟨c, cs⟩ h
      exact ⟨c3 b c h.1, d3 bs cs h.2⟩

/-- **C78 (several axes).** Tuples of rough axes are rough: a coordinate is inside (near) a multi-dimensional bin if every component is inside (near) the interval of
its axis. -/
theorem C78_tuple {t₀ t₁ : AxTy} {ts : List AxTy} {item : Tup (t₀ :: t₁ :: ts)} {ns : List Nat} {ins near : TupCovers (t₀ :: t₁ :: ts)}
    {dom : TupDom (t₀ :: t₁ :: ts)} (hf : TupRough item ns ins near dom) (hpos : ∀ n ∈ ns, 0 < n) (hfit : ns.prod < usizeSize)
    {a : AxesTuple t₀ t₁ ts} (ha : AxesTuple.fromTuple item = .ok a) : RoughAxis a ns.prod (CoversAll ins) (CoversAll near) (InDom dom) := by
  obtain ⟨cov, c1, c2, c3⟩ := hf.faithful
  refine ⟨CoversAll cov, C51_tuple c1 hpos hfit ha, ?_, c3⟩
  intro N b c hN hb hc hi
  obtain ⟨is, bs, hg, hN', hb', hbs, huniq⟩ := C21_bin_numbering c1.lawful hpos hfit ha hN
  have : b = bs := by
    have hb2 : a.bin N = .ok (some b) := hb
    rw [hb'] at hb2; simpa using hb2.symm
  subst this
  exact c2 is b c hg hbs hc hi

/-- **C78 (one axis).** -/
theorem C78_tuple1 {X : Type} [Axis X] {x : X} {n : Nat} {inside near dom} (hf : RoughAxis x n inside near dom) {a : AxesTuple1 X}
    (ha : AxesTuple1.fromTuple x = .ok a) : RoughAxis a n inside near dom := by
  obtain ⟨cov, c1, c2, c3⟩ := hf
  refine ⟨cov, C51_tuple1 c1 ha, ?_, c3⟩
  have hx : a.axis = x := by
    simp [AxesTuple1.fromTuple, c1.lawful.numBins] at ha
    rw [← ha]
  intro i b c hi hb
  exact c2 i b c hi (by rw [← hx]; exact hb)

/-! ## Histograms -/

variable {A V : Type} [Axis A] {axes : A} {n : Nat} {inside near : Axis.Interval A → Axis.Coordinate A → Prop} {dom : Axis.Coordinate A → Prop}

open Classical in
/-- **C78 (dense histograms).** After any sequence of filling calls every bin has the value one gets by filling a default value with some of the calls, in order: with
all whose coordinate is inside its interval and with none that is not near it, and which calls these are depends on the coordinates only. -/
theorem C78_dense [RDefault V] (hf : RoughAxis axes n inside near dom) {h : VecHistogram A V} (hnew : VecHistogram.new axes = .ok h)
    (calls : List (Call V (Axis.Coordinate A))) (hd : ∀ call ∈ calls, dom call.coord) :
    ∃ items, (h.callAllCaught calls).iter = .ok items ∧ items.length = n ∧
      ∀ i it, items[i]? = some it → it.index = i ∧ Axis.bin axes i = .ok (some it.bin) ∧
        ∃ counted : Axis.Coordinate A → Prop, (∀ call ∈ calls, inside it.bin call.coord → counted call.coord) ∧ (∀ c, counted c → near it.bin c) ∧
          it.value = filledWith (calls.filter fun call => counted call.coord) RDefault.dflt := by
  obtain ⟨cov, c1, c2, c3⟩ := hf
  obtain ⟨items, h1, h2, h3⟩ := C51_dense c1 hnew calls hd
  refine ⟨items, h1, h2, fun i it hi => ?_⟩
  obtain ⟨k1, k2, k3⟩ := h3 i it hi
  have hin : i < n := by rw [← h2]; exact (List.getElem?_eq_some_iff.1 hi).1
  exact ⟨k1, k2, cov it.bin, fun call hc => c2 i _ _ hin k2 (hd call hc), fun c => c3 _ c, k3⟩

open Classical in
/-- **C78 (sparse histograms).** The same; a bin appears if the coordinate of some call is inside its interval and only if one is near it. -/
theorem C78_sparse [RDefault V] (hf : RoughAxis axes n inside near dom)
    (calls : List (Call V (Axis.Coordinate A))) (hd : ∀ call ∈ calls, dom call.coord)
    (o : ((HashHistogram.new axes : HashHistogram A V).callAllCaught calls).values.Order) :
    ∃ items, ((HashHistogram.new axes : HashHistogram A V).callAllCaught calls).iter o = .ok items ∧ (items.map (·.index)).Nodup ∧
      (∀ it ∈ items, it.index < n ∧ Axis.bin axes it.index = .ok (some it.bin) ∧ (∃ call ∈ calls, near it.bin call.coord) ∧
        ∃ counted : Axis.Coordinate A → Prop, (∀ call ∈ calls, inside it.bin call.coord → counted call.coord) ∧ (∀ c, counted c → near it.bin c) ∧
          it.value = filledWith (calls.filter fun call => counted call.coord) RDefault.dflt) ∧
      ∀ i b, i < n → Axis.bin axes i = .ok (some b) → (∃ call ∈ calls, inside b call.coord) → ∃ it ∈ items, it.index = i ∧ it.bin = b := by
  obtain ⟨cov, c1, c2, c3⟩ := hf
  obtain ⟨items, h1, h2, h3, h4⟩ := C51_sparse c1 calls hd o
  refine ⟨items, h1, h2, fun it hi => ?_, fun i b hi hb hc => ?_⟩
  · obtain ⟨k1, k2, ⟨call, m, k3⟩, k4⟩ := h3 it hi
    exact ⟨k1, k2, ⟨call, m, c3 _ _ k3⟩, cov it.bin, fun call hc => c2 _ _ _ k1 k2 (hd call hc), fun c => c3 _ c, k4⟩
  · obtain ⟨call, m, k⟩ := hc
    exact h4 i b hi hb ⟨call, m, c2 i b _ hi hb (hd call m) k⟩

open Classical in
/-- **C78 (counts of integers).** Filled without weights, no call panics and every bin counts at least the coordinates inside its interval and at most those near it. -/
theorem C78_count_int {τ : IntTy} (hf : RoughAxis axes n inside near dom) {h : VecHistogram A (MInt τ)} (hnew : VecHistogram.new axes = .ok h)
    (cs : List (Axis.Coordinate A)) (hd : ∀ c ∈ cs, dom c) (hfit : (cs.length : ℤ) ≤ τ.max) :
    ∃ h' items, h.callAll (cs.map .fill) = (h', none) ∧ h'.iter = .ok items ∧ items.length = n ∧
      ∀ i it, items[i]? = some it → it.index = i ∧ Axis.bin axes i = .ok (some it.bin) ∧
        ((cs.countP fun c => inside it.bin c : ℕ) : ℤ) ≤ it.value.val ∧ it.value.val ≤ ((cs.countP fun c => near it.bin c : ℕ) : ℤ) := by
  obtain ⟨cov, c1, c2, c3⟩ := hf
  obtain ⟨h', items, h1, h2, h3, h4⟩ := C52_count_int c1 hnew cs hd hfit
  refine ⟨h', items, h1, h2, h3, fun i it hi => ?_⟩
  obtain ⟨k1, k2, k3⟩ := h4 i it hi
  have hin : i < n := by rw [← h3]; exact (List.getElem?_eq_some_iff.1 hi).1
  refine ⟨k1, k2, ?_, ?_⟩
  · rw [k3]; norm_cast
    exact List.countP_mono_left fun c hc h => decide_eq_true (c2 i _ _ hin k2 (hd c hc) (of_decide_eq_true h))
  · rw [k3]; norm_cast
    exact List.countP_mono_left fun c _ h => decide_eq_true (c3 _ _ (of_decide_eq_true h))

open Classical in
/-- **C78 (counts of floats).** The same for float values, below `2^p` fills. -/
theorem C78_count_float {F : FFmt} (hf : RoughAxis axes n inside near dom) {h : VecHistogram A (Flt F)} (hnew : VecHistogram.new axes = .ok h)
    (cs : List (Axis.Coordinate A)) (hd : ∀ c ∈ cs, dom c) (hfit : cs.length ≤ 2 ^ F.p) :
    ∃ h' items, h.callAll (cs.map .fill) = (h', none) ∧ h'.iter = .ok items ∧ items.length = n ∧
      ∀ i it, items[i]? = some it → it.index = i ∧ Axis.bin axes i = .ok (some it.bin) ∧ it.value.isFin ∧
        ((cs.countP fun c => inside it.bin c : ℕ) : ℚ) ≤ it.value.val ∧ it.value.val ≤ ((cs.countP fun c => near it.bin c : ℕ) : ℚ) := by
  obtain ⟨cov, c1, c2, c3⟩ := hf
  obtain ⟨h', items, h1, h2, h3, h4⟩ := C52_count_float c1 hnew cs hd
  refine ⟨h', items, h1, h2, h3, fun i it hi => ?_⟩
  obtain ⟨k1, k2, k3, k4⟩ := h4 i it hi
  have hin : i < n := by rw [← h3]; exact (List.getElem?_eq_some_iff.1 hi).1
  rw [min_eq_left (List.countP_le_length.trans hfit)] at k4
  refine ⟨k1, k2, k3, ?_, ?_⟩
  · rw [k4]; norm_cast
    exact List.countP_mono_left fun c hc h => decide_eq_true (c2 i _ _ hin k2 (hd c hc) (of_decide_eq_true h))
  · rw [k4]; norm_cast
    exact List.countP_mono_left fun c _ h => decide_eq_true (c3 _ _ (of_decide_eq_true h))
end

/-! ## The axes -/

section
variable [cfg : Cfg] {F : FFmt}

/-- a float axis whose lookup agrees with its strictly increasing edges up to `δ`, the outer ones of which are the bounds up to `ρ` -/
theorem Uniform.rough {a : Uniform (Flt F)} {num : ℕ} (hlaw : LawfulAxis a (num + 2)) (hlo : a.low.isFin) (hhi : a.high.isFin) (ed : ℕ → Flt F)
    (b0 : a.bin 0 = .ok (some (.Underflow a.low))) (bN : a.bin (num + 1) = .ok (some (.Overflow a.high)))
    (eb : ∀ i, i < num → a.bin (i + 1) = .ok (some (.Bin (ed i) (ed (i + 1))))) (mono : ∀ i, i < num → (ed i).val < (ed (i + 1)).val)
    {δ ρ ε : ℚ} (hδ : 0 ≤ δ) (hρ : 0 ≤ ρ) (hε : δ + ρ ≤ ε) (z0 : a.low.val - ρ ≤ (ed 0).val) (zN : (ed num).val ≤ a.high.val + ρ)
    (hidx : ∀ c, ∃ i, a.index c = .ok (some i) ∧ i < num + 2 ∧ (i = 0 ↔ POrd.lt c a.low = true) ∧ (POrd.ge c a.high = true → i = num + 1))
    (hin : ∀ c, POrd.le a.low c = true → POrd.lt c a.high = true → ∃ i, a.index c = .ok (some i) ∧ 1 ≤ i ∧
      ((i ≤ num ∧ (ed (i - 1)).val - δ ≤ c.val ∧ c.val ≤ (ed i).val + δ) ∨ (i = num + 1 ∧ a.high.val - δ ≤ c.val))) :
    RoughAxis a (num + 2) (BinInterval.Inside (F := F) ε) (BinInterval.Near ε) (fun c : Flt F => c ≠ .nan) := by
  have mono' : ∀ i j, i ≤ j → j ≤ num → (ed i).val ≤ (ed j).val := by
    intro i j hij hj
    induction j, hij using Nat.le_induction with
    | base => exact le_rfl
    | succ j _ ih => exact (ih (by omega)).trans (mono j (by omega)).le
  have bins : ∀ i b, i < num + 2 → Axis.bin a i = .ok (some b) → (i = 0 ∧ b = .Underflow a.low) ∨ (i = num + 1 ∧ b = .Overflow a.high) ∨
      (1 ≤ i ∧ i ≤ num ∧ b = .Bin (ed (i - 1)) (ed i)) := by
    intro i b hi hb
    have hb : a.bin i = .ok (some b) := hb
    rcases Nat.eq_zero_or_pos i with rfl | h0
    · rw [b0] at hb; cases hb; exact .inl ⟨rfl, rfl⟩
    · by_cases hN : i = num + 1
      · subst hN; rw [bN] at hb; cases hb; exact .inr (.inl ⟨rfl, rfl⟩)
      · have := eb (i - 1) (by omega)
        rw [show i - 1 + 1 = i by omega, hb] at this
        cases this
        exact .inr (.inr ⟨h0, by omega, rfl⟩)
  have ge_of_le : ∀ {x y : Flt F}, POrd.le x y = true → POrd.ge y x = true := by
    intro x y h
    obtain ⟨u, v, h1, h2, h3⟩ := LawfulPOrd.le_iff.1 h
    exact LawfulPOrd.ge_iff.2 ⟨v, u, h2, h1, h3⟩
  -- where a coordinate is counted
  have place : ∀ c : Flt F, c ≠ .nan → ∃ i, a.index c = .ok (some i) ∧ ((i = 0 ∧ POrd.lt c a.low = true) ∨
      (c.isFin ∧ a.low.val ≤ c.val ∧ c.val < a.high.val ∧ 1 ≤ i ∧ ((i ≤ num ∧ (ed (i - 1)).val - δ ≤ c.val ∧ c.val ≤ (ed i).val + δ) ∨ (i = num + 1 ∧ a.high.val - δ ≤ c.val))) ∨
      (i = num + 1 ∧ POrd.le a.high c = true)) := by
    intro c hc
    by_cases h1 : POrd.lt c a.low = true
    · obtain ⟨i, k1, -, k2, -⟩ := hidx c
      exact ⟨i, k1, .inl ⟨k2.2 h1, h1⟩⟩
    by_cases h2 : POrd.le a.high c = true
    · obtain ⟨i, k1, -, -, k3⟩ := hidx c
      exact ⟨i, k1, .inr (.inr ⟨k3 (ge_of_le h2), h2⟩)⟩
    · have hcf : c.isFin := by
        cases c with
        | nan => exact absurd rfl hc
        | inf s =>
          exfalso
          cases hh : a.high with
          | nan => rw [hh] at hhi; exact hhi.elim
          | inf t => rw [hh] at hhi; exact hhi.elim
          | fin t x hx =>
            cases hg : a.low with
            | nan => rw [hg] at hlo; exact hlo.elim
            | inf t => rw [hg] at hlo; exact hlo.elim
            | fin t' x' hx' => rw [hh] at h2; rw [hg] at h1; cases s <;> first | exact h1 rfl | exact h2 rfl
        | fin s x hx => trivial
      rw [Flt.lt_fin hcf hlo, decide_eq_true_iff] at h1
      rw [Flt.le_fin hhi hcf, decide_eq_true_iff] at h2
      obtain ⟨i, k1, k2, k3⟩ := hin c (by rw [Flt.le_fin hlo hcf]; exact decide_eq_true (not_lt.1 h1)) (by rw [Flt.lt_fin hcf hhi]; exact decide_eq_true (not_le.1 h2))
      exact ⟨i, k1, .inr (.inl ⟨hcf, not_lt.1 h1, not_le.1 h2, k2, k3⟩)⟩
  refine RoughAxis.of_index hlaw ?_ ?_ ?_ ?_
  · intro c _
    obtain ⟨i, hi, -⟩ := hidx c
    exact ⟨_, hi⟩
  · intro i j b hi hj h1 h2
    rcases bins i b hi h1 with ⟨rfl, rfl⟩ | ⟨rfl, rfl⟩ | ⟨g1, g2, rfl⟩ <;> rcases bins j _ hj h2 with ⟨rfl, hb⟩ | ⟨rfl, hb⟩ | ⟨g3, g4, hb⟩ <;>
      first | rfl | (cases hb) | skip
    injection hb with hb1 hb2
    rcases lt_trichotomy i j with h | h | h
    · have t1 := mono (i - 1) (by omega)
      have t2 := mono' i (j - 1) (by omega) (by omega)
      rw [show i - 1 + 1 = i by omega] at t1
      rw [← hb1] at t2; linarith
    · exact h
    · have t1 := mono (j - 1) (by omega)
      have t2 := mono' j (i - 1) (by omega) (by omega)
      rw [show j - 1 + 1 = j by omega] at t1
      rw [hb1] at t2; linarith
  · intro i b c hi hb hc hins
    show a.index c = _
    obtain ⟨j, k1, k2⟩ := place c hc
    rw [k1]
    congr 2
    rcases bins i b hi hb with ⟨rfl, rfl⟩ | ⟨rfl, rfl⟩ | ⟨g1, g2, rfl⟩
    · obtain ⟨j', l1, -, l2, -⟩ := hidx c
      rw [k1] at l1; cases l1
      exact l2.2 hins
    · obtain ⟨j', l1, -, -, l2⟩ := hidx c
      rw [k1] at l1; cases l1
      exact l2 (ge_of_le hins)
    · obtain ⟨f, i1, i2⟩ := hins
      have u1 := mono' 0 (i - 1) (by omega) (by omega)
      have u2 := mono' i num (by omega) le_rfl
      rcases k2 with ⟨rfl, k⟩ | ⟨-, m1, m2, m3, m4⟩ | ⟨rfl, k⟩
      · rw [Flt.lt_fin f hlo, decide_eq_true_iff] at k
        linarith
      · rcases m4 with ⟨m5, m6, m7⟩ | ⟨rfl, m6⟩
        · rcases lt_trichotomy i j with h | h | h
          · have := mono' i (j - 1) (by omega) (by omega)
            linarith
          · exact h.symm
          · have := mono' j (i - 1) (by omega) (by omega)
            linarith
        · linarith
      · rw [Flt.le_fin hhi f, decide_eq_true_iff] at k
        linarith
  · intro i b c hi hb hc hix
    obtain ⟨j, k1, k2⟩ := place c hc
    have : a.index c = .ok (some i) := hix
    rw [k1] at this; cases this
    rcases bins i b hi hb with ⟨rfl, rfl⟩ | ⟨rfl, rfl⟩ | ⟨g1, g2, rfl⟩ <;> rcases k2 with ⟨k0, k⟩ | ⟨f, m1, m2, m3, m4⟩ | ⟨k0, k⟩ <;> try omega
    · exact k
    · rcases m4 with m4 | ⟨-, m4⟩
      · omega
      · exact .inr ⟨f, by linarith⟩
    · exact .inl k
    · rcases m4 with ⟨-, m4, m5⟩ | m4
      · exact ⟨f, by linarith, by linarith⟩
      · omega

/-- the bounds of `Uniform::new` are those given, in order -/
theorem Uniform.Sane.range_abs {num : Nat} {low high : Flt F} {a : Uniform (Flt F)} (hnew : Uniform.new num low high = .ok (.ok a))
    (hl : low.isFin) (hh : high.isFin) (hp : num < 2 ^ (F.p - 1))
    (hw : num * pow2 F.emin ≤ |high.val - low.val|) (hs : 4 * (num * (|low.val| + |high.val|)) ≤ F.maxFin) : |high.val - low.val| = a.high.val - a.low.val := by
  obtain ⟨sane, hnum, hM⟩ := Uniform.new_sane hnew hl hh hp hw hs
  obtain ⟨r, hr, -, -, hok, hax⟩ := C03_new_float num low high
  have hra : r = .ok a := by rw [hr] at hnew; injection hnew
  obtain ⟨-, hsw, hns, -⟩ := hax a hra
  have hlt := sane.lt
  by_cases h : POrd.gt low high = true
  · obtain ⟨e1, e2⟩ := hsw h
    rw [e1, e2] at hlt ⊢
    rw [abs_of_neg (by linarith)]; ring
  · obtain ⟨e1, e2⟩ := hns (by simpa using h)
    rw [e1, e2] at hlt ⊢
    rw [abs_of_pos (by linarith)]

/-- **C78 (`Uniform`).** A float axis `Uniform::new(num, low, high)` with finite bounds (no overflow, bins not narrower than the smallest normal number and than twelve
rounding errors of the bounds, fewer than `2^(p-1)` bins): all coordinates but NaN are counted according to the reported intervals, up to `17 * 2^-p * (|low| + |high|)`
at the edges. There is no doubt about the underflow bin, nor about coordinates from `high` on. -/
theorem C78_uniform {num : Nat} {low high : Flt F} {a : Uniform (Flt F)} (hnew : Uniform.new num low high = .ok (.ok a))
    (hl : low.isFin) (hh : high.isFin) (hn : num + 2 < usizeSize) (hp : num < 2 ^ (F.p - 1))
    (hw : num * pow2 F.emin ≤ |high.val - low.val|) (hs : 4 * (num * (|low.val| + |high.val|)) ≤ F.maxFin)
    (hd : num * (12 * pow2 (-(F.p : ℤ)) * (|low.val| + |high.val|)) < |high.val - low.val|) :
    RoughAxis a (num + 2) (BinInterval.Inside (F := F) (17 * pow2 (-(F.p : ℤ)) * (|low.val| + |high.val|)))
      (BinInterval.Near (17 * pow2 (-(F.p : ℤ)) * (|low.val| + |high.val|))) (fun c : Flt F => c ≠ .nan) := by
  obtain ⟨sane, hnum, hM⟩ := Uniform.new_sane hnew hl hh hp hw hs
  obtain ⟨b0, bN, bO, ed, eb, ev, em, e0⟩ := C47_float_bins hnew hl hh hn hp hw hs
  have hl' : low ≠ .nan := by rintro rfl; exact hl
  have hh' : high ≠ .nan := by rintro rfl; exact hh
  obtain ⟨nb, h5⟩ := C05_uniform_new hnew hl' hh' hn hp (fun _ _ => hw)
  have hnQ : (1 : ℚ) ≤ num := by rw [← hnum]; exact sane.numQ
  have hn0 : (0 : ℚ) < num := by linarith
  rw [Uniform.Sane.range_abs hnew hl hh hp hw hs] at hd
  obtain ⟨E, hE⟩ : ∃ E, E = pow2 (-(F.p : ℤ)) * (|low.val| + |high.val|) := ⟨_, rfl⟩
  have hE0 : 0 ≤ E := by rw [hE]; exact mul_nonneg (pow2_pos _).le (by positivity)
  have se : ∀ n : ℚ, n * pow2 (-(F.p : ℤ)) * (|low.val| + |high.val|) = n * E := by intro n; rw [hE]; ring
  have zN := abs_le.1 (ev num le_rfl).2
  have z0 := abs_le.1 (ev 0 (by omega)).2
  rw [se, mul_div_cancel₀ _ (by linarith : (num : ℚ) ≠ 0)] at zN
  rw [se] at z0 hd
  rw [se]
  have hwid : 12 * E < (a.high.val - a.low.val) / num := by
    rw [lt_div_iff₀ hn0]; linarith
  refine Uniform.rough (δ := 11 * E) (ρ := 6 * E) (C25_lawful_uniform_float_new hnew hl' hh' hn hp (fun _ _ => hw)) sane.low_fin sane.high_fin ed b0 bN eb ?_
    (by linarith) (by linarith) (by linarith) (by linarith [z0.1]) (by linarith [zN.2]) ?_ ?_
  · intro i hi
    have y1 := abs_le.1 (ev i hi.le).2
    have y2 := abs_le.1 (ev (i + 1) hi).2
    rw [se] at y1 y2
    push_cast at y2
    linarith [y1.2, y2.1]
  · intro c
    obtain ⟨i, h1, h2, h3, h4, -⟩ := h5 c
    exact ⟨i, h1, h2, h3, h4⟩
  · intro c hc1 hc2
    obtain ⟨i, i1, i2, i3⟩ := C06_within_rounding_partial hnew hl hh hn hp hw hs c hc1 hc2
    refine ⟨i, i1, i2, ?_⟩
    rcases i3 with ⟨s, t, j1, j2, -, -, j3, j4⟩ | ⟨rfl, -, j3⟩
    · have := eb (i - 1) (by omega)
      rw [show i - 1 + 1 = i by omega, j2] at this
      cases this
      rw [se] at j3 j4
      exact .inl ⟨j1, by linarith, by linarith⟩
    · rw [se] at j3
      exact .inr ⟨rfl, by linarith⟩

/-- **C78 (without under- and overflow).** -/
theorem C78_uniform_noflow {u : Uniform (Flt F)} {inside near : BinInterval (Flt F) → Flt F → Prop} {dom : Flt F → Prop}
    (hf : RoughAxis u (u.num + 2) inside near dom) : RoughAxis (UniformNoFlow.mk u) u.num inside near dom := by
  obtain ⟨cov, c1, c2, c3⟩ := hf
  refine ⟨cov, C51_uniform_noflow c1, ?_, c3⟩
  intro i b c hi hb hc
  have hfit := c1.lawful.fits
  refine c2 (i + 1) b c (by omega) ?_ hc
  obtain ⟨h1, -⟩ := C07_noflow_bin u i (by omega) (by omega)
  have hb' : (UniformNoFlow.mk u).bin i = .ok (some b) := hb
  rw [h1 hi] at hb'
  exact hb'

/-- **C78 (`UniformCyclic`).** A float axis `UniformCyclic::new(num, low, high)` (hypotheses as for `Uniform`): every finite coordinate whose distance to the lower bound does
not overflow is counted according to the reported intervals after a whole number of turns, up to `seamError 22`. -/
theorem C78_uniform_cyclic {num : Nat} {low high : Flt F} {a : UniformCyclic (Flt F)} (hnew : UniformCyclic.new num low high = .ok (.ok a))
    (hl : low.isFin) (hh : high.isFin) (hn : num + 2 < usizeSize) (hp : num < 2 ^ (F.p - 1))
    (hw : num * pow2 F.emin ≤ |high.val - low.val|) (hs : 4 * (num * (|low.val| + |high.val|)) ≤ F.maxFin)
    (hd : num * (12 * pow2 (-(F.p : ℤ)) * (|low.val| + |high.val|)) < |high.val - low.val|) :
    RoughAxis a num (BinInterval.InsideTurns (F := F) (a.high.val - a.low.val) (seamError F 22 a.low.val a.high.val))
      (BinInterval.NearTurns (a.high.val - a.low.val) (seamError F 22 a.low.val a.high.val)) (fun c : Flt F => c.isFin ∧ |c.val - a.low.val| ≤ F.maxFin) := by
  have hu := UniformCyclic.new_inv hnew
  obtain ⟨sane, hnum, hM⟩ := Uniform.new_sane hu hl hh hp hw hs
  have hl' : low ≠ .nan := by rintro rfl; exact hl
  have hh' : high ≠ .nan := by rintro rfl; exact hh
  obtain ⟨cu, u1, -, -⟩ := C78_uniform hu hl hh hn hp hw hs hd
  have hlaw := C25_lawful_uniform_float_new hu hl' hh' hn hp (fun _ _ => hw)
  rw [← hnum] at hlaw u1
  have hlaw' : LawfulAxis a num := by
    have := C25_lawful_uniform_cyclic hlaw
    rwa [hnum] at this
  obtain ⟨-, -, -, ed, eb, ev, em, e0⟩ := C47_float_bins hu hl hh hn hp hw hs
  have hbin : ∀ j, j < num → a.bin j = .ok (some (.Bin (ed j) (ed (j + 1)))) := by
    intro j hj
    show a.axis.bin j = _
    rw [(C07_noflow_bin a.axis.axis j (by omega) (by omega)).1 (by omega), eb j hj]
  have hB0 : 0 ≤ |a.low.val| + |a.high.val| := by positivity
  have hsm : ∀ c, seamError F 16 a.low.val a.high.val c ≤ seamError F 22 a.low.val a.high.val c := by
    intro c
    unfold seamError
    exact mul_le_mul_of_nonneg_left (by linarith) (pow2_pos _).le
  refine RoughAxis.of_index hlaw' ?_ ?_ ?_ ?_
  · rintro c ⟨hc, hD⟩
    rcases (C77_uniform_cyclic hnew hl hh hn hp hw hs c hc hD).1 with ⟨k, i, s, t, -, h, -⟩ | ⟨k, h, -⟩
    · exact ⟨_, h⟩
    · exact ⟨_, h⟩
  · intro i j b hi hj h1 h2
    -- the bins of the underlying axis are distinct
    have h1 : a.bin i = .ok (some b) := h1
    have h2 : a.bin j = .ok (some b) := h2
    rw [hbin i hi] at h1
    rw [hbin j hj] at h2
    cases h1
    injection h2 with h2; injection h2 with h2; injection h2 with h2 h3
    rw [Uniform.Sane.range_abs hu hl hh hp hw hs] at hd
    obtain ⟨E, hE⟩ : ∃ E, E = pow2 (-(F.p : ℤ)) * (|low.val| + |high.val|) := ⟨_, rfl⟩
    have se : ∀ n : ℚ, n * pow2 (-(F.p : ℤ)) * (|low.val| + |high.val|) = n * E := by intro n; rw [hE]; ring
    rw [se] at hd
    have hn0 : (0 : ℚ) < num := by exact_mod_cast (show 0 < num by omega)
    have hwid : 12 * E < (a.axis.axis.high.val - a.axis.axis.low.val) / num := by
      rw [lt_div_iff₀ hn0]; linarith
    have strict : ∀ i, i < num → (ed i).val < (ed (i + 1)).val := by
      intro i hi
      have y1 := abs_le.1 (ev i hi.le).2
      have y2 := abs_le.1 (ev (i + 1) hi).2
      rw [se] at y1 y2
      push_cast at y2
      linarith [y1.2, y2.1]
    have mono' : ∀ i j, i ≤ j → j ≤ num → (ed i).val ≤ (ed j).val := by
      intro i j hij hj
      induction j, hij using Nat.le_induction with
      | base => exact le_rfl
      | succ j _ ih => exact (ih (by omega)).trans (strict j (by omega)).le
    rcases lt_trichotomy i j with h | h | h
    · have := mono' (i + 1) j h (by omega)
      have := strict i hi
      rw [h2] at *; linarith
    · exact h
    · have := mono' (j + 1) i h (by omega)
      have := strict j hj
      rw [h2] at *; linarith
  · rintro i b c hi hb ⟨hc, hD⟩ hin
    have hb' : a.bin i = .ok (some b) := hb
    rw [hbin i hi] at hb'
    cases hb'
    obtain ⟨k, k1, k2⟩ := hin
    exact (C77_uniform_cyclic hnew hl hh hn hp hw hs c hc hD).2 k i _ _ hi (hbin i hi) k1 k2
  · rintro i b c hi hb ⟨hc, hD⟩ hix
    have hix : a.index c = .ok (some i) := hix
    have hb' : a.bin i = .ok (some b) := hb
    rcases (C77_uniform_cyclic hnew hl hh hn hp hw hs c hc hD).1 with ⟨k, j, s, t, -, h, g, g1, g2⟩ | ⟨k, h, -⟩
    · rw [hix] at h
      cases h
      rw [hb'] at g
      cases g
      have := hsm c.val
      exact ⟨k, by linarith, by linarith⟩
    · rw [hix] at h; cases h

/-- **C78 (`VariableCyclic`).** A cyclic float axis with distinct finite edges: the same, with `seamError 8`. -/
theorem C78_variable_cyclic [StdLib] {edges : List (Flt F)} {a : VariableCyclic (Flt F)} (hnew : VariableCyclic.new edges = .ok (.ok a))
    (hmem : edges.length + 1 < usizeSize) (hfin : ∀ x ∈ edges, x.isFin) (hd : edges.Pairwise (fun x y => x.val ≠ y.val))
    (lo hi : Flt F) (hl : a.low = .ok lo) (hh : a.high = .ok hi) (hB : 2 * (|lo.val| + |hi.val|) ≤ F.maxFin) :
    RoughAxis a (edges.length - 1) (BinInterval.InsideTurns (F := F) (hi.val - lo.val) (seamError F 8 lo.val hi.val))
      (BinInterval.NearTurns (hi.val - lo.val) (seamError F 8 lo.val hi.val)) (fun c : Flt F => c.isFin ∧ |c.val - lo.val| ≤ F.maxFin) := by
  have hnf := VariableCyclic.new_ok hnew
  have hv := VariableNoFlow.new_ok hnf
  have hd' : edges.Pairwise (fun x y => POrd.eq x y = false) := by
    have h1 : edges.Pairwise (fun x y => x ∈ edges ∧ y ∈ edges) := List.pairwise_of_forall_mem_list fun x hx y hy => ⟨hx, hy⟩
    refine (hd.and h1).imp ?_
    rintro x y ⟨hxy, hx, hy⟩
    rw [Flt.eq_fin (hfin x hx) (hfin y hy)]
    exact decide_eq_false hxy
  obtain ⟨_, bb, _⟩ := C14_variable_noflow_bins hnf hmem
  have hlen := (Variable.new_ok hv).2.2.1.length_eq
  have hbin : ∀ i b, i < edges.length - 1 → Axis.bin a i = .ok (some b) → ∃ s t, b = .Bin s t ∧ a.axis.axis.binEdges[i]? = some s ∧ a.bin i = .ok (some (.Bin s t)) := by
    intro i b hi hb
    obtain ⟨s, t, hs, ht, hb'⟩ := bb i (by omega)
    have h1 : a.axis.bin i = .ok (some b) := hb
    rw [hb'] at h1
    cases h1
    exact ⟨s, t, rfl, hs, hb'⟩
  refine RoughAxis.of_index (C25_lawful_variable_cyclic hnew hmem) ?_ ?_ ?_ ?_
  · rintro c ⟨hc, hD⟩
    rcases (C77_variable_cyclic hnew hmem hfin hd lo hi hl hh hB c hc hD).1 with ⟨k, i, s, t, -, h, -⟩ | ⟨k, h, -⟩
    · exact ⟨_, h⟩
    · exact ⟨_, h⟩
  · intro i j b hi hj h1 h2
    obtain ⟨s, t, rfl, g1, -⟩ := hbin i b hi h1
    obtain ⟨s', t', h3, g2, -⟩ := hbin j _ hj h2
    injection h3 with h3 h4
    subst h3 h4
    have irr : ∀ x : Flt F, POrd.lt x x = true → False := by
      intro x hx
      obtain ⟨u, v, e1, e2, e3⟩ := LawfulPOrd.lt_iff.1 hx
      rw [e1] at e2; cases e2; exact lt_irrefl _ e3
    rcases lt_trichotomy i j with h | h | h
    · have := strict_of_distinct hv hd' (i := i) (j := j) h (by omega)
      rw [List.getElem?_eq_getElem (by omega)] at g1 g2
      simp at g1 g2
      rw [g1, g2] at this
      exact (irr _ this).elim
    · exact h
    · have := strict_of_distinct hv hd' (i := j) (j := i) h (by omega)
      rw [List.getElem?_eq_getElem (by omega)] at g1 g2
      simp at g1 g2
      rw [g1, g2] at this
      exact (irr _ this).elim
  · rintro i b c hi' hb ⟨hc, hD⟩ hin
    obtain ⟨s, t, rfl, -, hb'⟩ := hbin i b hi' hb
    obtain ⟨k, k1, k2⟩ := hin
    exact (C77_variable_cyclic hnew hmem hfin hd lo hi hl hh hB c hc hD).2 k i _ _ (by omega) hb' k1 k2
  · rintro i b c hi' hb ⟨hc, hD⟩ hix
    have hix : a.index c = .ok (some i) := hix
    obtain ⟨s, t, rfl, -, hb'⟩ := hbin i b hi' hb
    rcases (C77_variable_cyclic hnew hmem hfin hd lo hi hl hh hB c hc hD).1 with ⟨k, j, s, t, -, h, g, g1, g2⟩ | ⟨k, h, -⟩
    · rw [hix] at h
      cases h
      rw [hb'] at g
      cases g
      exact ⟨k, g1, g2⟩
    · rw [hix] at h; cases h
end

end NdHist
