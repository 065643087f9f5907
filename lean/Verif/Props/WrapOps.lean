import Verif.Props.Wrap
import Verif.Props.IntMean
/-!
# C73, C75: arithmetic modulo the size of the type

`Wrapping<T>` in every build, and the primitive integers in builds without overflow checks: squares of weights, operators on histograms and means; and results that
are exact because they fit, whatever happened on the way.
-/
namespace NdHist
open RNum

section
variable [cfg : Cfg] {T : Type} [RNum T]

/-- `val` is the integer a `T` stands for; `+`, `-` and `*` never panic and are those of the integers modulo `N` -/
structure RingModulo (val : T → ℤ) (N : ℤ) : Prop extends AddsModulo val N where
  sub : ∀ a b, ∃ c, RNum.sub a b = .ok c ∧ val c ≡ val a - val b [ZMOD N]
  mul : ∀ a b, ∃ c, RNum.mul a b = .ok c ∧ val c ≡ val a * val b [ZMOD N]
end

section
variable [cfg : Cfg] {τ κ : IntTy}

/-- **C73 (`Wrapping<T>`).** In every build the operators of `Wrapping` numbers are those of the integers modulo `2^bits`. -/
theorem C73_wrapping_ops : RingModulo (WInt.val : WInt τ → ℤ) (2 ^ τ.bits) :=
  ⟨C73_wrapping, fun _ _ => ⟨_, rfl, MInt.wrapping_modEq _⟩, fun _ _ => ⟨_, rfl, MInt.wrapping_modEq _⟩⟩

theorem MInt.arith_modEq (hc : Cfg.checked = false) (k : ℤ) : ∃ c : MInt τ, MInt.arith k = .ok c ∧ c.val ≡ k [ZMOD 2 ^ τ.bits] := by
  unfold MInt.arith
  split
  · exact ⟨_, rfl, Int.ModEq.refl _⟩
  · simp only [hc, if_false, Bool.false_eq_true]
    exact ⟨_, rfl, MInt.wrapping_modEq _⟩

/-- **C73 (unchecked builds).** In a build without overflow checks, those of the primitive integers are. -/
theorem C73_release_ops (hc : Cfg.checked = false) : RingModulo (MInt.val : MInt τ → ℤ) (2 ^ τ.bits) :=
  ⟨C73_release hc, fun a b => MInt.arith_modEq hc (a.val - b.val), fun a b => MInt.arith_modEq hc (a.val * b.val)⟩

omit cfg in
theorem MInt.eq_of_modEq {x : MInt τ} {k : ℤ} (h : x.val ≡ k [ZMOD 2 ^ τ.bits]) (hk : InRange τ k) : x.val = k := by
  have h1 := x.min_le
  have h2 := x.le_max
  have e : τ.max - τ.min + 1 = 2 ^ τ.bits := by
    have := IntTy.two_pow_bits τ
    unfold IntTy.max IntTy.min
    split <;> omega
  obtain ⟨c, hc⟩ := h.dvd
  obtain ⟨k1, k2⟩ := hk
  have hpos : (0 : ℤ) < 2 ^ τ.bits := by positivity
  have hlt : (2 : ℤ) ^ τ.bits * c < 2 ^ τ.bits * 1 := by rw [← hc]; omega
  have hgt : (2 : ℤ) ^ τ.bits * (-1) < 2 ^ τ.bits * c := by rw [← hc]; omega
  have := lt_of_mul_lt_mul_left hlt hpos.le
  have := lt_of_mul_lt_mul_left hgt hpos.le
  have : c = 0 := by omega
  rw [this] at hc; omega
end

/-! ## Values that fit -/

section
variable [cfg : Cfg] {τ κ : IntTy} {A : Type} [Axis A] {axes : A} {n : Nat} {covers : Axis.Interval A → Axis.Coordinate A → Prop} {dom : Axis.Coordinate A → Prop}

/-- **C73 (totals that fit).** In a build without overflow checks a bin holds the exact total of its weights whenever that total is in the range of the type, even if the totals
on the way were not. -/
theorem C73_release_fits (hc : Cfg.checked = false) (hf : FaithfulAxis axes n covers dom) {h : VecHistogram A (MInt τ)} (hnew : VecHistogram.new axes = .ok h)
    (hist : List (Axis.Coordinate A × Option (MInt τ))) (hd : ∀ cw ∈ hist, dom cw.1) :
    ∃ h' items, h.callAll (numCalls hist) = (h', none) ∧ h'.iter = .ok items ∧ items.length = n ∧
      ∀ i it, items[i]? = some it → it.index = i ∧ Axis.bin axes i = .ok (some it.bin) ∧
        (InRange τ (totalIn MInt.val covers it.bin hist) → it.value.val = totalIn MInt.val covers it.bin hist) := by
  obtain ⟨h', items, h1, h2, h3, h4⟩ := C73_modulo_dense (C73_release hc) hf hnew hist hd
  refine ⟨h', items, h1, h2, h3, fun i it hi => ?_⟩
  obtain ⟨a, b, c⟩ := h4 i it hi
  exact ⟨a, b, MInt.eq_of_modEq c⟩
end

/-! ## Weighted sums -/

section
variable [cfg : Cfg] {T : Type} [RNum T] {val : T → ℤ} {N : ℤ}

/-- the calls `fill` and `fill_with` on a histogram of weighted sums -/
def weightedSumCalls {C : Type} (hist : List (C × Option T)) : List (Call (WeightedSum T) C) :=
  hist.map fun cw => match cw.2 with
    | none => .fill cw.1
    | some w => .fillWith cw.1 w

theorem RingModulo.ws_on {C : Type} (hT : RingModulo val N) (cw : C × Option T) (s : WeightedSum T) :
    ∀ call ∈ weightedSumCalls [cw], (call.on s).2 = none ∧ val (call.on s).1.sumw ≡ val s.sumw + weightOf val cw [ZMOD N] ∧
      val (call.on s).1.sumw2 ≡ val s.sumw2 + weightOf val cw ^ 2 [ZMOD N] := by
  intro call hc
  obtain ⟨c, _ | w⟩ := cw
  · obtain rfl : call = .fill c := by simpa [weightedSumCalls] using hc
    obtain ⟨r, r1, r2⟩ := hT.add s.sumw RNum.one
    obtain ⟨q, q1, q2⟩ := hT.add s.sumw2 RNum.one
    have : (Call.fill c : Call (WeightedSum T) C).on s = (⟨r, q⟩, none) := by
      show (Upd.andThen (Upd.onField _ _ (addAssign RNum.one)) (Upd.onField _ _ (addAssign RNum.one))) s = _
      simp only [Upd.andThen, Upd.onField, addAssign, Upd.store, r1, q1]
    rw [this]
    rw [hT.one] at r2 q2
    exact ⟨rfl, by simpa [weightOf] using r2, by simpa [weightOf] using q2⟩
  · obtain rfl : call = .fillWith c w := by simpa [weightedSumCalls] using hc
    obtain ⟨r, r1, r2⟩ := hT.add s.sumw w
    obtain ⟨u, u1, u2⟩ := hT.mul w w
    obtain ⟨q, q1, q2⟩ := hT.add s.sumw2 u
    have : (Call.fillWith c w : Call (WeightedSum T) C).on s = (⟨r, q⟩, none) := by
      show (Upd.andThen (Upd.onField _ _ (addAssign w)) (Upd.withVal (RNum.mul w w) fun ww => Upd.onField _ _ (addAssign ww))) s = _
      simp only [Upd.andThen, Upd.onField, Upd.withVal, addAssign, Upd.store, r1, u1, q1]
    rw [this]
    refine ⟨rfl, by simpa [weightOf] using r2, q2.trans ?_⟩
    have := u2.add_left (val s.sumw2)
    simpa [weightOf, sq] using this

theorem RingModulo.ws_total {C : Type} (hT : RingModulo val N) (hist : List (C × Option T)) :
    ∀ call ∈ weightedSumCalls hist, ∀ v, (call.on v).2 = none := by
  intro call hc v
  obtain ⟨cw, hcw, rfl⟩ := List.mem_map.1 hc
  exact (hT.ws_on cw v _ (by simp [weightedSumCalls])).1

theorem RingModulo.ws_filled {C : Type} (hT : RingModulo val N) (hist : List (C × Option T)) (s : WeightedSum T) :
    val (filledWith (weightedSumCalls hist) s).sumw ≡ val s.sumw + (hist.map (weightOf val)).sum [ZMOD N] ∧
    val (filledWith (weightedSumCalls hist) s).sumw2 ≡ val s.sumw2 + (hist.map fun cw => weightOf val cw ^ 2).sum [ZMOD N] := by
  induction hist generalizing s with
  | nil => exact ⟨by simpa [weightedSumCalls, filledWith] using Int.ModEq.refl _, by simpa [weightedSumCalls, filledWith] using Int.ModEq.refl _⟩
  | cons cw hist ih =>
    obtain ⟨call, hcall⟩ : ∃ call, (weightedSumCalls [cw] : List (Call (WeightedSum T) C)) = [call] := ⟨_, rfl⟩
    have e : filledWith (weightedSumCalls (cw :: hist)) s = filledWith (weightedSumCalls hist) (call.on s).1 := by
      have : (weightedSumCalls (cw :: hist) : List (Call (WeightedSum T) C)) = weightedSumCalls [cw] ++ weightedSumCalls hist := rfl
      rw [this, hcall]; rfl
    rw [e]
    obtain ⟨-, i1, i2⟩ := hT.ws_on cw s call (by rw [hcall]; simp)
    rw [List.map_cons, List.map_cons, List.sum_cons, List.sum_cons, ← add_assoc, ← add_assoc]
    exact ⟨(ih _).1.trans (i1.add_right _), (ih _).2.trans (i2.add_right _)⟩

variable {A : Type} [Axis A] {axes : A} {n : Nat} {covers : Axis.Interval A → Axis.Coordinate A → Prop} {dom : Axis.Coordinate A → Prop}

omit cfg [RNum T] in
theorem weightedSumCalls_coord [Cfg] [RNum T] {C : Type} (hist : List (C × Option T)) (p : C → Bool) :
    (weightedSumCalls hist).filter (fun call => p call.coord) = weightedSumCalls (hist.filter fun cw => p cw.1) := by
  unfold weightedSumCalls
  rw [List.filter_map]
  congr 1
  apply List.filter_congr
  rintro ⟨c, _ | w⟩ _ <;> rfl

open Classical in
/-- **C73 (modular weighted sums).** If `+` and `*` are those of the integers modulo `N`, no program of `fill` and `fill_with` calls on a histogram of `WeightedSum`s panics, the
value of each bin is the sum of the weights in its interval modulo `N`, and its variance the sum of their squares. -/
theorem C73_modulo_weighted_sum (hT : RingModulo val N) (hf : FaithfulAxis axes n covers dom) {h : VecHistogram A (WeightedSum T)} (hnew : VecHistogram.new axes = .ok h)
    (hist : List (Axis.Coordinate A × Option T)) (hd : ∀ cw ∈ hist, dom cw.1) :
    ∃ h' items, h.callAll (weightedSumCalls hist) = (h', none) ∧ h'.iter = .ok items ∧ items.length = n ∧
      ∀ i it, items[i]? = some it → it.index = i ∧ Axis.bin axes i = .ok (some it.bin) ∧
        val it.value.get ≡ totalIn val covers it.bin hist [ZMOD N] ∧
        val it.value.variance ≡ ((hist.filter fun cw => covers it.bin cw.1).map fun cw => weightOf val cw ^ 2).sum [ZMOD N] := by
  have hd' : ∀ call ∈ weightedSumCalls hist, dom call.coord := by
    intro call hc
    obtain ⟨⟨c, _ | w⟩, h1, rfl⟩ := List.mem_map.1 hc <;> exact hd _ h1
  obtain ⟨items, hit, hlen, hall⟩ := C51_dense hf hnew _ hd'
  refine ⟨_, items, callAll_total hf hnew hd' (hT.ws_total hist), hit, hlen, ?_⟩
  intro i it hi
  obtain ⟨h1, h2, h3⟩ := hall i it hi
  refine ⟨h1, h2, ?_⟩
  rw [weightedSumCalls_coord hist (fun c => decide (covers it.bin c))] at h3
  rw [h3]
  obtain ⟨j1, j2⟩ := hT.ws_filled (hist.filter fun cw => decide (covers it.bin cw.1)) RDefault.dflt
  have z1 : val (RDefault.dflt : WeightedSum T).sumw = 0 := hT.zero
  have z2 : val (RDefault.dflt : WeightedSum T).sumw2 = 0 := hT.zero
  rw [z1, zero_add] at j1
  rw [z2, zero_add] at j2
  exact ⟨j1, j2⟩

/-! ## Operators -/

/-- the operation on integers -/
def Op.onInt : Op → ℤ → ℤ → ℤ
  | .add => (· + ·)
  | .sub => (· - ·)
  | .mul => (· * ·)
  | .div => (· / ·)

theorem RingModulo.op (hT : RingModulo val N) (o : Op) (ho : o ≠ .div) (x y : T) : ∃ z, ROps.op o x y = .ok z ∧ val z ≡ o.onInt (val x) (val y) [ZMOD N] := by
  cases o with
  | add => exact hT.add x y
  | sub => exact hT.sub x y
  | mul => exact hT.mul x y
  | div => exact absurd rfl ho

/-- **C73 (modular operators).** If `+`, `-` and `*` are those of the integers modulo `N` then so are those of the histograms, bin by bin, and they never panic. -/
theorem C73_modulo_operators [PEq A] (hT : RingModulo val N) (o : Op) (ho : o ≠ .div) {l r : VecHistogram A T} {n : Nat} (hl : l.Ok n) (hr : r.Ok n)
    (hax : PEq.peq l.axes r.axes = true) :
    ∃ m, l.opBorrow o r = .ok (.ok m) ∧ m.axes = l.axes ∧
      ∀ i, i < n → ∃ x y z, l.valueAtIndex i = some x ∧ r.valueAtIndex i = some y ∧ m.valueAtIndex i = some z ∧ val z ≡ o.onInt (val x) (val y) [ZMOD N] := by
  rcases C33_binwise_dense o hl hr hax with ⟨m, m1, m2, m3, m4⟩ | ⟨p, i, x, y, -, -, -, hp⟩
  · refine ⟨m, m1, m3, fun i hi => ?_⟩
    obtain ⟨x, y, z, l1, l2, l3, l4⟩ := m4 i hi
    obtain ⟨z', z1, z2⟩ := hT.op o ho x y
    rw [l3] at z1
    obtain rfl := Except.ok.inj z1
    exact ⟨x, y, z, l1, l2, l4, z2⟩
  · obtain ⟨z', z1, -⟩ := hT.op o ho x y
    rw [hp] at z1; cases z1
end

/-! ## Means in builds without overflow checks -/

section
variable [cfg : Cfg] {τ κ : IntTy} {F : FFmt} {A : Type} [Axis A] {axes : A} {n : Nat} {covers : Axis.Interval A → Axis.Coordinate A → Prop} {dom : Axis.Coordinate A → Prop}

theorem mean_release_on {C O : Type} (hc : Cfg.checked = false) (c : C) (x : MInt τ) (m : Mean (MInt τ) O (MInt κ)) :
    ((Call.fillWith c x : Call (Mean (MInt τ) O (MInt κ)) C).on m).2 = none ∧
    ((Call.fillWith c x : Call (Mean (MInt τ) O (MInt κ)) C).on m).1.sumw.val ≡ m.sumw.val + x.val [ZMOD 2 ^ τ.bits] ∧
    ((Call.fillWith c x : Call (Mean (MInt τ) O (MInt κ)) C).on m).1.sumw2.val ≡ m.sumw2.val + x.val ^ 2 [ZMOD 2 ^ τ.bits] ∧
    ((Call.fillWith c x : Call (Mean (MInt τ) O (MInt κ)) C).on m).1.count.val ≡ m.count.val + 1 [ZMOD 2 ^ κ.bits] := by
  have hT := C73_release_ops (τ := τ) hc
  have hK := C73_release_ops (τ := κ) hc
  obtain ⟨r, r1, r2⟩ := hT.add m.sumw x
  obtain ⟨u, u1, u2⟩ := hT.mul x x
  obtain ⟨q, q1, q2⟩ := hT.add m.sumw2 u
  obtain ⟨k, k1, k2⟩ := hK.add m.count (@RNum.one (MInt κ) cfg _)
  have : (Call.fillWith c x : Call (Mean (MInt τ) O (MInt κ)) C).on m = (⟨r, q, k⟩, none) := by
    show (Upd.andThen (Upd.onField _ _ (addAssign x)) (Upd.andThen (Upd.withVal (RNum.mul x x) fun d2 => Upd.onField _ _ (addAssign d2))
      (Upd.onField _ _ (addAssign RNum.one)))) m = _
    simp only [Upd.andThen, Upd.onField, Upd.withVal, addAssign, Upd.store, r1, u1, q1, k1]
  rw [this]
  refine ⟨rfl, r2, q2.trans ?_, k2⟩
  rw [sq]
  exact u2.add_left _

theorem mean_release_filled {C O : Type} (hc : Cfg.checked = false) (hist : List (C × MInt τ)) (m : Mean (MInt τ) O (MInt κ)) :
    (filledWith (meanFills hist) m).sumw.val ≡ m.sumw.val + (hist.map fun cx => cx.2.val).sum [ZMOD 2 ^ τ.bits] ∧
    (filledWith (meanFills hist) m).sumw2.val ≡ m.sumw2.val + (hist.map fun cx => cx.2.val ^ 2).sum [ZMOD 2 ^ τ.bits] ∧
    (filledWith (meanFills hist) m).count.val ≡ m.count.val + hist.length [ZMOD 2 ^ κ.bits] := by
  induction hist generalizing m with
  | nil => refine ⟨?_, ?_, ?_⟩ <;> simpa [meanFills, filledWith] using Int.ModEq.refl _
  | cons cx hist ih =>
    have e : filledWith (meanFills (cx :: hist)) m = filledWith (meanFills hist) ((Call.fillWith cx.1 cx.2 : Call (Mean (MInt τ) O (MInt κ)) C).on m).1 := rfl
    rw [e]
    obtain ⟨-, i1, i2, i3⟩ := mean_release_on (O := O) (κ := κ) hc cx.1 cx.2 m
    obtain ⟨j1, j2, j3⟩ := ih ((Call.fillWith cx.1 cx.2 : Call (Mean (MInt τ) O (MInt κ)) C).on m).1
    simp only [List.map_cons, List.sum_cons, List.length_cons, Nat.cast_add, Nat.cast_one]
    refine ⟨?_, ?_, ?_⟩
    · rw [← add_assoc]; exact j1.trans (i1.add_right _)
    · rw [← add_assoc]; exact j2.trans (i2.add_right _)
    · rw [add_comm (hist.length : ℤ) 1, ← add_assoc]; exact j3.trans (i3.add_right _)

/-- **C75 (unchecked builds).** In a build without overflow checks no filling of a histogram of `Mean`s of integers panics, the count is right modulo the size of its type, and
every bin whose totals (of the samples, of their squares, and the count) fit has the mean and variance of C75, even if the totals on the way did not fit. -/
theorem C75_release (hc : Cfg.checked = false) (hp3 : 3 ≤ F.p) (hem : F.emin + 2 * F.p + 2 ≤ 0) (hτ : -2 ^ F.p ≤ τ.min ∧ τ.max ≤ 2 ^ F.p) (hκ : κ.max ≤ 2 ^ F.p)
    (hf : FaithfulAxis axes n covers dom) {h : VecHistogram A (Mean (MInt τ) (Flt F) (MInt κ))} (hnew : VecHistogram.new axes = .ok h)
    (hist : List (Axis.Coordinate A × MInt τ)) (hd : ∀ cx ∈ hist, dom cx.1) :
    ∃ h' items, h.callAll (meanFills hist) = (h', none) ∧ h'.iter = .ok items ∧ items.length = n ∧
      ∀ i it, items[i]? = some it → it.index = i ∧ Axis.bin axes i = .ok (some it.bin) ∧
        let xs : List ℤ := samplesIn covers it.bin hist
        let N : ℚ := xs.length
        let mean : ℚ := (xs.sum : ℤ) / N
        let meanSquare : ℚ := ((xs.map fun x => x ^ 2).sum : ℤ) / N
        it.value.numSamples.val ≡ xs.length [ZMOD 2 ^ κ.bits] ∧
        (xs ≠ [] → InRange τ xs.sum → InRange τ (xs.map fun x => x ^ 2).sum → InRange κ xs.length →
          it.value.numSamples.val = xs.length ∧ ∃ q v vm, it.value.get = .ok q ∧ Closest mean q ∧
          it.value.varianceOfSamples = .ok v ∧ v.isFin ∧ 0 ≤ v.val ∧
          |v.val - (meanSquare - mean ^ 2)| ≤ ((1 + F.u) ^ 2 - 1) * meanSquare + ((1 + F.u) ^ 4 - 1) * mean ^ 2 ∧
          ((∃ c, ∀ x ∈ xs, x = c) → v.val = 0) ∧
          it.value.varianceOfMean = .ok vm ∧ Closest (v.val / N) vm) := by
  classical
  have hd' : ∀ call ∈ (meanFills hist : List (Call (Mean (MInt τ) (Flt F) (MInt κ)) _)), dom call.coord := meanFills_dom hd
  obtain ⟨items, hit, hlen, hall⟩ := C51_dense hf hnew _ hd'
  refine ⟨_, items, callAll_total hf hnew hd' ?_, hit, hlen, ?_⟩
  · intro call hm v
    obtain ⟨cx, -, rfl⟩ := List.mem_map.1 hm
    exact (mean_release_on hc cx.1 cx.2 v).1
  intro i it hi
  obtain ⟨h1, h2, h3⟩ := hall i it hi
  refine ⟨h1, h2, ?_⟩
  set l := hist.filter fun cx => decide (covers it.bin cx.1) with hl
  have hcall : (meanFills hist : List (Call (Mean (MInt τ) (Flt F) (MInt κ)) _)).filter (fun call => decide (covers it.bin call.coord)) = meanFills l := by
    unfold meanFills
    rw [List.filter_map]
    rfl
  rw [hcall] at h3
  have hxs : samplesIn covers it.bin hist = l.map fun cx => cx.2.val := rfl
  obtain ⟨j1, j2, j3⟩ := mean_release_filled (κ := κ) (O := Flt F) hc l RDefault.dflt
  rw [← h3] at j1 j2 j3
  have z1 : (RDefault.dflt : Mean (MInt τ) (Flt F) (MInt κ)).sumw.val = 0 := rfl
  have z2 : (RDefault.dflt : Mean (MInt τ) (Flt F) (MInt κ)).sumw2.val = 0 := rfl
  have z3 : (RDefault.dflt : Mean (MInt τ) (Flt F) (MInt κ)).count.val = 0 := rfl
  rw [z1, zero_add, ← hxs] at j1
  rw [z2, zero_add] at j2
  rw [z3, zero_add] at j3
  have e2 : (l.map fun cx => cx.2.val ^ 2) = (samplesIn covers it.bin hist).map fun x => x ^ 2 := by rw [hxs, List.map_map]; rfl
  have e3 : (l.length : ℤ) = (samplesIn covers it.bin hist).length := by rw [hxs, List.length_map]
  rw [e2] at j2
  rw [e3] at j3
  simp only
  refine ⟨j3, fun hne r1 r2 r3 => ?_⟩
  obtain ⟨a1, -, a3⟩ := mean_of_totals hp3 hem hτ hκ it.value _ (MInt.eq_of_modEq j1 r1) (MInt.eq_of_modEq j2 r2) (MInt.eq_of_modEq j3 r3)
  exact ⟨a1, a3 hne⟩
end
end NdHist
