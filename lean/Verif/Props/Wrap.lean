import Verif.Model.Wrapping
import Verif.Props.FloatSum
/-!
# C73: weighted integer histograms: exact totals, panics, and totals modulo the size of the type
-/
namespace NdHist
open RNum

/-! ## Vocabulary -/

section
variable [cfg : Cfg] {T : Type} [RNum T]

/-- `val` is the integer a `T` stands for; `+` never panics and adds these integers modulo `N` -/
structure AddsModulo (val : T → ℤ) (N : ℤ) : Prop where
  zero : val RNum.zero = 0
  one : val RNum.one = 1
  add : ∀ a b, ∃ c, RNum.add a b = .ok c ∧ val c ≡ val a + val b [ZMOD N]

/-- what the call `fill(c)` (1) or `fill_with(c, w)` (`w`) adds -/
def weightOf {C : Type} (val : T → ℤ) (cw : C × Option T) : ℤ := (cw.2.map val).getD 1

/-- the sum of the weights of the calls with a coordinate in `b` -/
noncomputable def totalIn {C B : Type} (val : T → ℤ) (covers : B → C → Prop) (b : B) (hist : List (C × Option T)) : ℤ :=
  open Classical in ((hist.filter fun cw => covers b cw.1).map (weightOf val)).sum
end

section
variable [cfg : Cfg] {τ : IntTy}

theorem MInt.wrapping_modEq (n : ℤ) : (MInt.wrapping n : MInt τ).val ≡ n [ZMOD 2 ^ τ.bits] := by
  show (n - τ.min) % 2 ^ τ.bits + τ.min ≡ n [ZMOD 2 ^ τ.bits]
  have := (Int.mod_modEq (n - τ.min) (2 ^ τ.bits)).add_right τ.min
  simpa using this

/-- **C73 (`Wrapping<T>`).** In every build, `Wrapping` numbers add up modulo `2^bits`. -/
theorem C73_wrapping : AddsModulo (WInt.val : WInt τ → ℤ) (2 ^ τ.bits) :=
  ⟨rfl, rfl, fun _ _ => ⟨_, rfl, MInt.wrapping_modEq _⟩⟩

/-- **C73 (unchecked builds).** In a build without overflow checks, the primitive integers do. -/
theorem C73_release (hc : Cfg.checked = false) : AddsModulo (MInt.val : MInt τ → ℤ) (2 ^ τ.bits) := by
  refine ⟨rfl, rfl, fun a b => ?_⟩
  show ∃ c, MInt.arith (a.val + b.val) = .ok c ∧ _
  unfold MInt.arith
  split
  · exact ⟨_, rfl, Int.ModEq.refl _⟩
  · simp only [hc, if_false, Bool.false_eq_true]
    exact ⟨_, rfl, MInt.wrapping_modEq _⟩
end

/-! ## Modular totals -/

section
variable [cfg : Cfg] {T : Type} [RNum T] {val : T → ℤ} {N : ℤ}

theorem AddsModulo.call_on {C : Type} (hT : AddsModulo val N) (cw : C × Option T) (v : T) :
    ∀ call ∈ numCalls [cw], (call.on v).2 = none ∧ val (call.on v).1 ≡ val v + weightOf val cw [ZMOD N] := by
  intro call hc
  obtain ⟨c, _ | w⟩ := cw
  · obtain rfl : call = .fill c := by simpa [numCalls] using hc
    obtain ⟨r, r1, r2⟩ := hT.add v RNum.one
    have : (Call.fill c : Call T C).on v = (r, none) := by
      show addAssign RNum.one v = _
      simp only [addAssign, Upd.store, r1]
    rw [this]
    rw [hT.one] at r2
    exact ⟨rfl, by simpa [weightOf] using r2⟩
  · obtain rfl : call = .fillWith c w := by simpa [numCalls] using hc
    obtain ⟨r, r1, r2⟩ := hT.add v w
    have : (Call.fillWith c w : Call T C).on v = (r, none) := by
      show addAssign w v = _
      simp only [addAssign, Upd.store, r1]
    rw [this]
    exact ⟨rfl, by simpa [weightOf] using r2⟩

theorem AddsModulo.total {C : Type} (hT : AddsModulo val N) (hist : List (C × Option T)) :
    ∀ call ∈ numCalls hist, ∀ v, (call.on v).2 = none := by
  intro call hc v
  obtain ⟨cw, hcw, rfl⟩ := List.mem_map.1 hc
  exact (hT.call_on cw v _ (by simp [numCalls])).1

theorem AddsModulo.filledWith {C : Type} (hT : AddsModulo val N) (hist : List (C × Option T)) (v : T) :
    val (NdHist.filledWith (numCalls hist) v) ≡ val v + (hist.map (weightOf val)).sum [ZMOD N] := by
  induction hist generalizing v with
  | nil => simpa [numCalls, NdHist.filledWith] using Int.ModEq.refl _
  | cons cw hist ih =>
    obtain ⟨call, hcall⟩ : ∃ call, numCalls [cw] = [call] := ⟨_, rfl⟩
    have e : NdHist.filledWith (numCalls (cw :: hist)) v = NdHist.filledWith (numCalls hist) (call.on v).1 := by
      have : numCalls (cw :: hist) = numCalls [cw] ++ numCalls hist := rfl
      rw [this, hcall]; rfl
    rw [e]
    refine (ih _).trans ?_
    have := (hT.call_on cw v call (by rw [hcall]; simp)).2
    rw [List.map_cons, List.sum_cons, ← add_assoc]
    exact this.add_right _

variable {A : Type} [Axis A] {axes : A} {n : Nat} {covers : Axis.Interval A → Axis.Coordinate A → Prop} {dom : Axis.Coordinate A → Prop}

/-- **C73 (modular totals, dense).** If the bins are numbers added modulo `N`, no program of `fill` and `fill_with` calls panics, and each bin holds, modulo `N`, the sum of
the weights of the coordinates its interval contains. -/
theorem C73_modulo_dense (hT : AddsModulo val N) (hf : FaithfulAxis axes n covers dom) {h : VecHistogram A T} (hnew : VecHistogram.new axes = .ok h)
    (hist : List (Axis.Coordinate A × Option T)) (hd : ∀ cw ∈ hist, dom cw.1) :
    ∃ h' items, h.callAll (numCalls hist) = (h', none) ∧ h'.iter = .ok items ∧ items.length = n ∧
      ∀ i it, items[i]? = some it → it.index = i ∧ Axis.bin axes i = .ok (some it.bin) ∧
        val it.value ≡ totalIn val covers it.bin hist [ZMOD N] := by
  classical
  obtain ⟨items, hit, hlen, hall⟩ := C51_dense hf hnew _ (numCalls_dom hd)
  refine ⟨_, items, callAll_total hf hnew (numCalls_dom hd) (hT.total hist), hit, hlen, ?_⟩
  intro i it hi
  obtain ⟨h1, h2, h3⟩ := hall i it hi
  refine ⟨h1, h2, ?_⟩
  rw [numCalls_coord hist (fun c => decide (covers it.bin c))] at h3
  rw [h3]
  have := hT.filledWith (hist.filter fun cw => decide (covers it.bin cw.1)) RDefault.dflt
  have z : val (RDefault.dflt : T) = 0 := hT.zero
  rw [z, zero_add] at this
  exact this

/-- **C73 (modular totals, sparse).** The same for sparse histograms; a bin is present if one of the coordinates is in it. -/
theorem C73_modulo_sparse (hT : AddsModulo val N) (hf : FaithfulAxis axes n covers dom)
    (hist : List (Axis.Coordinate A × Option T)) (hd : ∀ cw ∈ hist, dom cw.1) :
    ∃ h', (HashHistogram.new axes : HashHistogram A T).callAll (numCalls hist) = (h', none) ∧ ∀ o : h'.values.Order, ∃ items, h'.iter o = .ok items ∧
      (∀ it ∈ items, Axis.bin axes it.index = .ok (some it.bin) ∧ val it.value ≡ totalIn val covers it.bin hist [ZMOD N]) ∧
      ∀ i b, i < n → Axis.bin axes i = .ok (some b) → (∃ cw ∈ hist, covers b cw.1) → ∃ it ∈ items, it.index = i ∧ it.bin = b := by
  classical
  refine ⟨_, callAll_total_sparse hf (numCalls_dom hd) (hT.total hist), fun o => ?_⟩
  obtain ⟨items, hit, -, hall, hex⟩ := C51_sparse hf _ (numCalls_dom hd) o
  refine ⟨items, hit, ?_, ?_⟩
  · intro it hi
    obtain ⟨-, h2, -, h3⟩ := hall it hi
    refine ⟨h2, ?_⟩
    rw [numCalls_coord hist (fun c => decide (covers it.bin c))] at h3
    rw [h3]
    have := hT.filledWith (hist.filter fun cw => decide (covers it.bin cw.1)) RDefault.dflt
    have z : val (RDefault.dflt : T) = 0 := hT.zero
    rw [z, zero_add] at this
    exact this
  · rintro i b hi hb ⟨cw, hcw, hc⟩
    refine hex i b hi hb ?_
    obtain ⟨c, w⟩ := cw
    refine ⟨_, List.mem_map.2 ⟨(c, w), hcw, rfl⟩, ?_⟩
    cases w <;> exact hc

theorem modulo_plan (hT : AddsModulo val N) (hf : FaithfulAxis axes n covers dom) [PEq A] (hrefl : PEq.peq axes axes = true) {h : VecHistogram A T}
    (hnew : VecHistogram.new axes = .ok h) (plan : MergePlan (Axis.Coordinate A × Option T)) (hd : ∀ cw ∈ plan.calls, dom cw.1) :
    ∃ m, plan.numCalls.run h = .ok (.ok m) ∧ m.Ok n ∧ m.axes = axes ∧ ∀ i b, i < n → Axis.bin axes i = .ok (some b) →
      ∃ v, m.valueAtIndex i = some v ∧ val v ≡ totalIn val covers b plan.calls [ZMOD N] := by
  classical
  induction plan with
  | share hist =>
    simp only [MergePlan.calls] at hd
    have hc := callAll_total hf hnew (numCalls_dom hd) (hT.total hist)
    obtain ⟨ok, hax, hval⟩ := C28_dense hf.lawful hnew (numCalls hist)
    refine ⟨h.callAllCaught (numCalls hist), ?_, ok, hax, ?_⟩
    · simp only [MergePlan.numCalls, MergePlan.run, hc]
    intro i b hi hb
    refine ⟨_, by rw [hval i, if_pos hi], ?_⟩
    rw [callsIn_eq_covers hf (numCalls_dom hd) hi hb, numCalls_coord hist (fun c => decide (covers b c))]
    have := hT.filledWith (hist.filter fun cw => decide (covers b cw.1)) RDefault.dflt
    have z : val (RDefault.dflt : T) = 0 := hT.zero
    rw [z, zero_add] at this
    exact this
  | merge l r ihl ihr =>
    simp only [MergePlan.calls, List.mem_append] at hd
    obtain ⟨a, a1, a2, a3, a4⟩ := ihl fun cw hc => hd cw (.inl hc)
    obtain ⟨b, b1, b2, b3, b4⟩ := ihr fun cw hc => hd cw (.inr hc)
    rcases C33_binwise_dense .add a2 b2 (by rw [a3, b3]; exact hrefl) with ⟨m, m1, m2, m3, m4⟩ | ⟨p, i, x, y, -, -, -, hp⟩
    · refine ⟨m, ?_, m2, by rw [m3, a3], ?_⟩
      · simp only [MergePlan.numCalls, MergePlan.run, a1, b1, m1]
      intro i bb hi hb
      obtain ⟨x, y, z, l1, l2, l3, l4⟩ := m4 i hi
      obtain ⟨x', x1, x2⟩ := a4 i bb hi hb
      obtain ⟨y', y1, y2⟩ := b4 i bb hi hb
      rw [l1] at x1; rw [l2] at y1; cases x1; cases y1
      obtain ⟨z', z1, z2⟩ := hT.add x y
      have hz : z = z' := by
        have : RNum.add x y = .ok z := l3
        rw [z1] at this; exact (Except.ok.inj this).symm
      subst hz
      refine ⟨_, l4, z2.trans ?_⟩
      have e : totalIn val covers bb (MergePlan.merge l r).calls = totalIn val covers bb l.calls + totalIn val covers bb r.calls := by
        simp only [totalIn, MergePlan.calls, List.filter_append, List.map_append, List.sum_append]
      rw [e]
      exact x2.add y2
    · obtain ⟨z', z1, -⟩ := hT.add x y
      have : RNum.add x y = .error p := hp
      rw [z1] at this; cases this

/-- **C73 (filling in parts).** The same for data split into any shares, filled into histograms of their own, which are added in any order and grouping. -/
theorem C73_modulo_plan (hT : AddsModulo val N) (hf : FaithfulAxis axes n covers dom) [PEq A] (hrefl : PEq.peq axes axes = true) {h : VecHistogram A T}
    (hnew : VecHistogram.new axes = .ok h) (plan : MergePlan (Axis.Coordinate A × Option T)) (hd : ∀ cw ∈ plan.calls, dom cw.1) :
    ∃ m items, plan.numCalls.run h = .ok (.ok m) ∧ m.iter = .ok items ∧ items.length = n ∧
      ∀ i it, items[i]? = some it → it.index = i ∧ Axis.bin axes i = .ok (some it.bin) ∧
        val it.value ≡ totalIn val covers it.bin plan.calls [ZMOD N] := by
  obtain ⟨m, m1, m2, m3, m4⟩ := modulo_plan hT hf hrefl hnew plan hd
  obtain ⟨items, hit, hlen, hall, -⟩ := C38_iter m2
  refine ⟨m, items, m1, hit, hlen, ?_⟩
  intro i it hi
  have hin : i < n := by rw [← hlen]; exact (List.getElem?_eq_some_iff.1 hi).1
  obtain ⟨b, v, h1, h2, h3⟩ := hall i hin
  rw [hi] at h1
  cases h1
  rw [m3] at h2
  obtain ⟨v', v1, v2⟩ := m4 i b hin h2
  rw [h3] at v1
  cases v1
  exact ⟨rfl, h2, v2⟩
end

/-! ## Builds with overflow checks -/

section
variable [cfg : Cfg] {τ : IntTy}

/-- what a call adds, from what it makes of zero -/
def callWeight {C : Type} (call : Call (MInt τ) C) : ℤ := (call.on RDefault.dflt).1.val

theorem MInt.add_zero_left (w : MInt τ) : (addAssign w (RDefault.dflt : MInt τ)).1 = w := by
  have : @RNum.add (MInt τ) cfg _ RDefault.dflt w = .ok w := by
    rw [MInt.add_def]
    have h0 : (RDefault.dflt : MInt τ).val = 0 := rfl
    rw [MInt.arith_ok (by rw [h0, zero_add]; exact w.min_le) (by rw [h0, zero_add]; exact w.le_max)]
    simp [h0]
  simp only [addAssign, Upd.store, this]

theorem callWeight_numCalls {C : Type} (hist : List (C × Option (MInt τ))) :
    (numCalls hist).map callWeight = hist.map (weightOf MInt.val) := by
  unfold numCalls
  rw [List.map_map]
  apply List.map_congr_left
  rintro ⟨c, _ | w⟩ -
  · show (addAssign RNum.one (RDefault.dflt : MInt τ)).1.val = 1
    rw [MInt.add_zero_left]; rfl
  · show (addAssign w (RDefault.dflt : MInt τ)).1.val = w.val
    rw [MInt.add_zero_left]

theorem callWeight_adds {C : Type} (hc : Cfg.checked = true) (hist : List (C × Option (MInt τ))) :
    ∀ call ∈ numCalls hist, Adds MInt.val call.on (callWeight call) := by
  intro call hm
  obtain ⟨⟨c, w⟩, -, rfl⟩ := List.mem_map.1 hm
  cases w with
  | none =>
    have := int_addAssign_val (τ := τ) hc (@RNum.one (MInt τ) cfg _)
    have e : callWeight (Call.fill c : Call (MInt τ) C) = (RNum.one : MInt τ).val := congrArg MInt.val (MInt.add_zero_left _)
    rw [e]; exact this
  | some w =>
    have e : callWeight (Call.fillWith c w : Call (MInt τ) C) = w.val := congrArg MInt.val (MInt.add_zero_left _)
    rw [e]; exact int_addAssign_val hc w

variable {A : Type} [Axis A] {axes : A} {n : Nat} {covers : Axis.Interval A → Axis.Coordinate A → Prop} {dom : Axis.Coordinate A → Prop}

theorem VecHistogram.callAll_prefix_none {V : Type} [RDefault V] {h : VecHistogram A V} {l r : List (Call V (Axis.Coordinate A))} (hp : (h.callAll (l ++ r)).2 = none) :
    (h.callAll l).2 = none := by
  induction l generalizing h with
  | nil => rfl
  | cons c cs ih =>
    simp only [List.cons_append, VecHistogram.callAll] at hp ⊢
    split
    · next h1 => rw [h1] at hp; cases hp
    · next h1 => rw [h1] at hp; exact ih hp

theorem checked_exact (hc : Cfg.checked = true) (hf : FaithfulAxis axes n covers dom) {h : VecHistogram A (MInt τ)} (hnew : VecHistogram.new axes = .ok h)
    (hist : List (Axis.Coordinate A × Option (MInt τ))) (hd : ∀ cw ∈ hist, dom cw.1) {h' : VecHistogram A (MInt τ)}
    (hr : h.callAll (numCalls hist) = (h', none)) :
    ∀ i b, i < n → Axis.bin axes i = .ok (some b) → ∃ v, h'.valueAtIndex i = some v ∧ v.val = totalIn MInt.val covers b hist := by
  classical
  intro i b hi hb
  obtain ⟨h₀, b1, b2, b3, b4⟩ := C26_new (V := MInt τ) hf.lawful
  obtain rfl : h = h₀ := by rw [hnew] at b1; exact Except.ok.inj b1
  obtain ⟨v, hv, hm⟩ := VecHistogram.callAll_measure (μ := MInt.val) (weight := callWeight) (callWeight_adds hc hist) hr (j := i)
    (by rw [b4, if_pos hi])
  refine ⟨v, hv, ?_⟩
  rw [hm, b3, callsIn_eq_covers hf (numCalls_dom hd) hi hb, numCalls_coord hist (fun c => decide (covers b c)), callWeight_numCalls]
  have h0 : (RDefault.dflt : MInt τ).val = 0 := rfl
  rw [h0, zero_add]; rfl

/-- **C73 (checked builds).** A program of `fill` and `fill_with` calls on a histogram of integers, in a build with overflow checks, stops at the first call whose weight
takes its bin's exact total out of the range of the type, with an overflow panic, and at no other; when it ends or stops, every bin holds the exact sum of the
weights, of the calls made so far, of the coordinates its interval contains. -/
theorem C73_checked (hc : Cfg.checked = true) (hf : FaithfulAxis axes n covers dom) {h : VecHistogram A (MInt τ)} (hnew : VecHistogram.new axes = .ok h)
    (hist : List (Axis.Coordinate A × Option (MInt τ))) (hd : ∀ cw ∈ hist, dom cw.1) :
    ∃ h' p pre items, h.callAll (numCalls hist) = (h', p) ∧ pre <+: hist ∧ h'.iter = .ok items ∧ items.length = n ∧
      (∀ i it, items[i]? = some it → it.index = i ∧ Axis.bin axes i = .ok (some it.bin) ∧ it.value.val = totalIn MInt.val covers it.bin pre) ∧
      (∀ q, q <+: pre → ∀ it ∈ items, τ.min ≤ totalIn MInt.val covers it.bin q ∧ totalIn MInt.val covers it.bin q ≤ τ.max) ∧
      (p = none ∧ pre = hist ∨
       p = some .overflow ∧ ∃ cw, (pre ++ [cw]) <+: hist ∧ ∃ it ∈ items, covers it.bin cw.1 ∧
         ¬ (τ.min ≤ totalIn MInt.val covers it.bin (pre ++ [cw]) ∧ totalIn MInt.val covers it.bin (pre ++ [cw]) ≤ τ.max)) := by
  classical
  have itemsOf : ∀ (pre : List (Axis.Coordinate A × Option (MInt τ))), (∀ cw ∈ pre, dom cw.1) → ∀ h', h.callAll (numCalls pre) = (h', none) →
      ∃ items, h'.iter = .ok items ∧ items.length = n ∧ h'.Ok n ∧ h'.axes = axes ∧
      (∀ i it, items[i]? = some it → it.index = i ∧ Axis.bin axes i = .ok (some it.bin) ∧ h'.valueAtIndex i = some it.value ∧
        it.value.val = totalIn MInt.val covers it.bin pre) := by
    intro pre hp h' hr
    have e : h' = h.callAllCaught (numCalls pre) := by
      have := VecHistogram.callAll_ok (h := h) (calls := numCalls pre) (by rw [hr])
      rwa [hr] at this
    obtain ⟨ok, hax, -⟩ := C28_dense hf.lawful hnew (numCalls pre)
    rw [← e] at ok hax
    obtain ⟨items, hit, hlen, hall, -⟩ := C38_iter ok
    refine ⟨items, hit, hlen, ok, hax, ?_⟩
    intro i it hi
    have hin : i < n := by rw [← hlen]; exact (List.getElem?_eq_some_iff.1 hi).1
    obtain ⟨b, v, h1, h2, h3⟩ := hall i hin
    rw [hi] at h1
    cases h1
    rw [hax] at h2
    obtain ⟨v', v1, v2⟩ := checked_exact hc hf hnew pre hp hr i b hin h2
    rw [h3] at v1
    cases v1
    exact ⟨rfl, h2, h3, v2⟩
  have inRange : ∀ (pre : List (Axis.Coordinate A × Option (MInt τ))), (∀ cw ∈ pre, dom cw.1) → (h.callAll (numCalls pre)).2 = none →
      ∀ q, q <+: pre → ∀ i b, i < n → Axis.bin axes i = .ok (some b) →
        τ.min ≤ totalIn MInt.val covers b q ∧ totalIn MInt.val covers b q ≤ τ.max := by
    rintro pre hp hr q ⟨t, rfl⟩ i b hi hb
    have hq : (h.callAll (numCalls q)).2 = none := by
      have e : numCalls (q ++ t) = numCalls q ++ numCalls t := List.map_append
      rw [e] at hr
      exact VecHistogram.callAll_prefix_none hr
    obtain ⟨v, -, hv⟩ := checked_exact hc hf hnew q (fun cw h => hp cw (by simp [h])) (Prod.ext rfl hq : h.callAll (numCalls q) = (_, none)) i b hi hb
    rw [← hv]; exact ⟨v.min_le, v.le_max⟩
  cases hp : (h.callAll (numCalls hist)).2 with
  | none =>
    obtain ⟨items, i1, i2, -, -, i3⟩ := itemsOf hist hd _ (Prod.ext rfl hp)
    refine ⟨_, none, hist, items, Prod.ext rfl hp, List.prefix_rfl, i1, i2, fun i it hi => ⟨(i3 i it hi).1, (i3 i it hi).2.1, (i3 i it hi).2.2.2⟩, ?_, .inl ⟨rfl, rfl⟩⟩
    intro q hq it hit
    obtain ⟨i, hi⟩ := List.mem_iff_getElem?.1 hit
    exact inRange hist hd hp q hq i it.bin (by rw [← i2]; exact (List.getElem?_eq_some_iff.1 hi).1) (i3 i it hi).2.1
  | some p =>
    obtain ⟨pre, c, post, e, hpre, hpan, hend⟩ := VecHistogram.callAll_panic hp
    obtain ⟨pre', rest, rfl, rfl, he⟩ := List.map_eq_append_iff.1 e
    obtain ⟨cw, post', rfl, hcw, rfl⟩ := List.map_eq_cons_iff.1 he
    change (h.callAll (numCalls pre')).2 = none at hpre
    change ((h.callAll (numCalls pre')).1.call c).2 = some p at hpan
    have hpre' : h.callAll (numCalls pre') = ((h.callAll (numCalls pre')).1, none) := Prod.ext rfl hpre
    obtain ⟨items, i1, i2, ok, hax, i3⟩ := itemsOf pre' (fun cw h => hd cw (by simp [h])) _ hpre'
    have hdc : dom cw.1 := hd cw (by simp)
    have hcoord : c.coord = cw.1 := by rw [← hcw]; obtain ⟨c, _ | w⟩ := cw <;> rfl
    obtain ⟨gax, -, g1, g2, -⟩ := C27_dense ok c
    rw [hax] at g1 g2
    obtain ⟨o, ho⟩ := hf.total cw.1 hdc
    rw [← hcoord] at ho
    cases o with
    | none => rw [g2 ho] at hpan; cases hpan
    | some i =>
      obtain ⟨⟨v, hv, hv2, hp2⟩, hoth⟩ := g1 i ho
      rw [hp2] at hpan
      -- the call is `+= w`
      obtain ⟨w, hw, hon⟩ : ∃ w : MInt τ, w.val = weightOf MInt.val cw ∧ c.on = addAssign w := by
        rw [← hcw]
        obtain ⟨c, _ | w⟩ := cw
        · exact ⟨RNum.one, rfl, rfl⟩
        · exact ⟨w, rfl, rfl⟩
      rw [hon] at hpan
      have hadd : @RNum.add (MInt τ) cfg _ v w = .error p := by
        cases hq : @RNum.add (MInt τ) cfg _ v w with
        | ok r => simp [addAssign, Upd.store, hq] at hpan
        | error q => simpa [addAssign, Upd.store, hq] using hpan
      have hkeep : (c.on v).1 = v := by rw [hon]; simp only [addAssign, Upd.store, hadd]
      rw [MInt.add_def] at hadd
      have hout : p = .overflow ∧ ¬ (τ.min ≤ v.val + w.val ∧ v.val + w.val ≤ τ.max) := by
        by_cases hr : τ.min ≤ v.val + w.val ∧ v.val + w.val ≤ τ.max
        · rw [MInt.arith_ok hr.1 hr.2] at hadd; cases hadd
        · simp only [MInt.arith, hr, hc, dif_neg, if_true, not_false_eq_true] at hadd
          exact ⟨(Except.error.inj hadd).symm, hr⟩
      have hin : i < n := hf.lawful.index_lt _ _ ho
      obtain ⟨it, hitem⟩ : ∃ it, items[i]? = some it := ⟨items[i], by rw [List.getElem?_eq_getElem]⟩
      obtain ⟨k1, k2, k3, k4⟩ := i3 i it hitem
      rw [hv] at k3
      obtain rfl := Option.some.inj k3
      have hcov : covers it.bin cw.1 := by
        rw [hcoord] at ho
        exact (hf.index_iff cw.1 hdc i it.bin hin k2).1 ho
      have htot : totalIn MInt.val covers it.bin (pre' ++ [cw]) = it.value.val + w.val := by
        rw [k4, hw]
        simp [totalIn, List.filter_append, hcov]
      -- the panicking call changes nothing
      have hsame : (h.callAll (numCalls (pre' ++ cw :: post'))).1 = (h.callAll (numCalls pre')).1 := by
        have h1 : (h.callAll (numCalls (pre' ++ cw :: post'))).1 = h.callAllCaught (numCalls pre' ++ [c]) := hend
        have h2 : h.callAllCaught (numCalls pre' ++ [c]) = ((h.callAllCaught (numCalls pre')).call c).1 := by
          simp [VecHistogram.callAllCaught, List.foldl_append]
        rw [h1, h2, ← VecHistogram.callAll_ok hpre]
        refine VecHistogram.ext_get gax fun j => ?_
        by_cases hj : j = i
        · subst hj; rw [hv2, hkeep, hv]
        · exact hoth j hj
      refine ⟨_, some p, pre', items, Prod.ext rfl hp, ⟨cw :: post', rfl⟩, ?_, i2, fun j it hj => ⟨(i3 j it hj).1, (i3 j it hj).2.1, (i3 j it hj).2.2.2⟩, ?_,
        .inr ⟨by rw [hout.1], cw, ⟨post', by simp⟩, it, List.mem_of_getElem? hitem, hcov, ?_⟩⟩
      · exact (congrArg VecHistogram.iter hsame).trans i1
      · intro q hq it hit
        obtain ⟨i, hi⟩ := List.mem_iff_getElem?.1 hit
        exact inRange pre' (fun cw h => hd cw (by simp [h])) hpre q hq i it.bin (by rw [← i2]; exact (List.getElem?_eq_some_iff.1 hi).1) (i3 i it hi).2.1
      · rw [htot]; exact hout.2
end
end NdHist
