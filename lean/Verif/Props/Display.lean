import Verif.SpecDisplay
import Verif.Model.Display
import Verif.Lemmas.UniformFloatBins
import Verif.Props.Access
import Verif.Props.MergeFill
/-!
# C44: printing a dense histogram
-/
namespace NdHist
open POrd RNum
section
variable [cfg : Cfg]

/-! ## The length of a bar -/

/-- rounding to a double changes numbers up to 64 by at most `2^-47` -/
theorem rs64_abs {x : ℚ} (h0 : 0 ≤ x) (h1 : x ≤ 64) : |FFmt.f64.rs x - x| ≤ pow2 (-46) := by
  rw [FFmt.rs_nonneg _ h0]
  refine (FFmt.f64.rnd_abs x).trans ?_
  have hq : FFmt.f64.qexp x ≤ -46 := by
    unfold FFmt.qexp
    have hl : ilog2 x ≤ 6 := by
      rcases h0.eq_or_lt with rfl | hx
      · decide
      · have := (ilog2_spec hx).1
        have h2 : pow2 (ilog2 x) ≤ pow2 6 := this.trans (h1.trans (by decide +kernel))
        exact pow2_le.1 h2
    have he : FFmt.f64.emin ≤ 6 := by decide
    have hp : FFmt.f64.p = 53 := rfl
    rw [hp]; push_cast; omega
  have := pow2_le.2 hq
  have := pow2_pos (-46)
  linarith

theorem rs64_nat (k : Nat) (h : k ≤ 64) : FFmt.f64.rs k = k :=
  FFmt.rs_of_rep _ (by
    rw [abs_of_nonneg (by positivity)]
    exact (FFmt.f64.rep_nat (h.trans (by decide +kernel))).repU)

/-- number of marks of the bar for `v`, the largest value being `scale` -/
def barLen (v scale : F64) : Nat := Flt.asUsize (Flt.mul (f64 50) (Flt.div v scale))

theorem usize_gt_64 : 64 < usizeSize / 2 := by
  have h := cfg.bits_ge
  have : 2 ^ 16 ≤ usizeSize := Nat.pow_le_pow_right (by norm_num) h
  omega

theorem f64_50 : (f64 50).isFin ∧ (f64 50).val = 50 := by
  have := Flt.ofNat_spec (F := FFmt.f64) (n := 50) (by decide +kernel)
  exact_mod_cast this

theorem barLen_pos {v scale : F64} (hv : v.isFin) (hs : scale.isFin) (h0 : 0 ≤ v.val) (hs0 : 0 < scale.val) (hle : v.val ≤ scale.val) :
    barLen v scale = ⌊FFmt.f64.rs (50 * FFmt.f64.rs (v.val / scale.val))⌋.toNat ∧
      0 ≤ FFmt.f64.rs (50 * FFmt.f64.rs (v.val / scale.val)) ∧ FFmt.f64.rs (50 * FFmt.f64.rs (v.val / scale.val)) ≤ 50 := by
  have hq0 : 0 ≤ v.val / scale.val := div_nonneg h0 hs0.le
  have hq1 : v.val / scale.val ≤ 1 := by rw [div_le_one hs0]; exact hle
  have hm : (64 : ℚ) ≤ FFmt.f64.maxFin := by decide +kernel
  have hd := (Flt.div_rounds hv hs hs0.ne').fin_of (by rw [abs_of_nonneg hq0]; linarith)
  have r1 : FFmt.f64.rs (v.val / scale.val) ≤ 1 := by
    have := FFmt.rs_mono FFmt.f64 hq1
    have h1 := rs64_nat 1 (by norm_num)
    push_cast at h1
    rwa [h1] at this
  have r0 := FFmt.rs_pos_le FFmt.f64 hq0
  have hmul := (Flt.mul_rounds f64_50.1 hd.1).fin_of (by
    rw [f64_50.2, hd.2, abs_of_nonneg (by positivity)]; linarith)
  rw [f64_50.2, hd.2] at hmul
  have m0 : 0 ≤ FFmt.f64.rs (50 * FFmt.f64.rs (v.val / scale.val)) := FFmt.rs_pos_le _ (by positivity)
  have m1 : FFmt.f64.rs (50 * FFmt.f64.rs (v.val / scale.val)) ≤ 50 := by
    have := FFmt.rs_mono FFmt.f64 (x := 50 * FFmt.f64.rs (v.val / scale.val)) (y := 50) (by linarith)
    have h1 := rs64_nat 50 (by norm_num)
    push_cast at h1
    rwa [h1] at this
  refine ⟨?_, m0, m1⟩
  unfold barLen
  set x := Flt.mul (f64 50) (Flt.div v scale)
  obtain ⟨x1, x2⟩ := hmul
  rw [← x2] at m0 m1 ⊢
  clear_value x
  have hu := usize_gt_64
  have hf : ⌊x.val⌋ ≤ 50 := by
    have := Int.floor_le x.val
    have : (⌊x.val⌋ : ℚ) ≤ 50 := by linarith
    exact_mod_cast this
  cases x with
  | nan => exact x1.elim
  | inf => exact x1.elim
  | fin s m h =>
    cases s
    · show min ⌊m⌋.toNat (usizeSize - 1) = ⌊m⌋.toNat
      have hf : ⌊m⌋ ≤ 50 := hf
      omega
    · have hm0 := h.nonneg
      have : m = 0 := by
        have : (0 : ℚ) ≤ -m := m0
        linarith
      subst this
      simp [Flt.asUsize, Flt.val, Flt.sval]

/-- NaN, negative or zero -/
def Flt.NonPos {F : FFmt} : Flt F → Prop
  | .nan => True
  | .inf s => s = true
  | .fin s m _ => s = true ∨ m = 0

theorem Flt.round_nonPos {F : FFmt} {s : Bool} {x : ℚ} (hx : 0 ≤ x) (h : s = true ∨ x = 0) : (Flt.round (F := F) s x hx).NonPos := by
  unfold Flt.round
  split
  · rcases h with h | h
    · exact .inl h
    · subst h; exact .inr F.rnd_zero
  · next hb =>
    rcases h with h | h
    · exact h
    · subst h; rw [F.rnd_zero] at hb; exact absurd F.maxFin_pos.le hb

theorem Flt.nonPos_of_le {v : F64} (h0 : POrd.le v (f64 0) = true) : v.NonPos := by
  have h0' : (f64 0).isFin ∧ (f64 0).val = 0 := by
    have := Flt.ofNat_spec (F := FFmt.f64) (n := 0) (by decide +kernel)
    exact_mod_cast this
  cases v with
  | nan => trivial
  | inf s =>
    cases s
    · exfalso
      obtain ⟨x, y, hx, hy, h⟩ := LawfulPOrd.le_iff.1 h0
      have : Flt.pcmp (.inf false) (f64 0) = some .gt := by
        cases hz : f64 0 with
        | nan => rw [hz] at h0'; exact h0'.1.elim
        | inf => rw [hz] at h0'; exact h0'.1.elim
        | fin => rfl
      have h0 : (Flt.pcmp (.inf false) (f64 0) == some .lt || Flt.pcmp (.inf false) (f64 0) == some .eq) = true := h0
      rw [this] at h0
      simp at h0
    · rfl
  | fin s m h =>
    rw [Flt.le_fin (a := .fin s m h) trivial h0'.1, h0'.2] at h0
    have h0 : Flt.sval s m ≤ 0 := of_decide_eq_true h0
    cases s
    · exact .inr (le_antisymm h0 h.nonneg)
    · exact .inl rfl

theorem barLen_nonpos {v scale : F64} (h0 : v.NonPos) (hs : scale = .inf false ∨ ∃ n hn, scale = .fin false n hn) : barLen v scale = 0 := by
  have hd : (Flt.div v scale).NonPos := by
    cases v with
    | nan => rcases hs with rfl | ⟨n, hn, rfl⟩ <;> trivial
    | inf s =>
      change s = true at h0; subst h0
      rcases hs with rfl | ⟨n, hn, rfl⟩
      · trivial
      · rfl
    | fin s m h =>
      rcases hs with rfl | ⟨n, hn, rfl⟩
      · exact .inr rfl
      · have h0 : s = true ∨ m = 0 := h0
        by_cases hn0 : n = 0
        · by_cases hm0 : m = 0
          · simp [Flt.div, hn0, hm0, Flt.NonPos]
          · simp [Flt.div, hn0, hm0, Flt.NonPos]
            simpa [hm0] using h0
        · simp only [Flt.div, hn0, if_false]
          apply Flt.round_nonPos
          rcases h0 with h | h
          · left; simp [h]
          · right; simp [h]
  have h50 : ∃ h, f64 50 = .fin false 50 h := by
    obtain ⟨h1, h2⟩ := f64_50
    cases hz : f64 50 with
    | nan => rw [hz] at h1; exact h1.elim
    | inf => rw [hz] at h1; exact h1.elim
    | fin s m h =>
      rw [hz] at h2
      cases s
      · have h2 : m = 50 := h2
        subst h2; exact ⟨h, rfl⟩
      · have h2 : -m = 50 := h2
        have := h.nonneg
        linarith
  obtain ⟨h50, e50⟩ := h50
  have hm : (Flt.mul (f64 50) (Flt.div v scale)).NonPos := by
    rw [e50]
    generalize Flt.div v scale = y at hd
    cases y with
    | nan => trivial
    | inf s =>
      change s = true at hd; subst hd
      simp [Flt.mul, Flt.NonPos]
    | fin s m h =>
      have hd : s = true ∨ m = 0 := hd
      refine Flt.round_nonPos (mul_nonneg h50.nonneg h.nonneg) ?_
      rcases hd with h | h
      · left; simp [h]
      · right; simp [h]
  unfold barLen
  generalize Flt.mul (f64 50) (Flt.div v scale) = y at hm
  cases y with
  | nan => rfl
  | inf s => change s = true at hm; subst hm; rfl
  | fin s m h =>
    rcases hm with hm | hm
    · subst hm; rfl
    · subst hm; cases s <;> simp [Flt.asUsize]

/-- nothing is longer than infinity -/
theorem barLen_inf {v : F64} : barLen v (.inf false) = 0 := by
  cases v with
  | nan => exact barLen_nonpos (v := .nan) trivial (.inl rfl)
  | inf s =>
    have : barLen (.inf s) (.inf false) = barLen .nan (.inf false) := rfl
    rw [this]; exact barLen_nonpos (v := .nan) trivial (.inl rfl)
  | fin s m h =>
    have : barLen (.fin s m h) (.inf false) = barLen (.fin s 0 (FFmt.rep_zero _)) (.inf false) := rfl
    rw [this]; exact barLen_nonpos (.inr rfl) (.inl rfl)

/-! ## The largest value -/

theorem maxBy_spec {B : Type} (l : List (B × F64)) (hl : ∀ x ∈ l, x.2 ≠ .nan) (hne : l ≠ []) :
    ∃ it ∈ l, maxBy (fun l r => (Flt.pcmp l.2 r.2).getD .lt) l = some it ∧ ∀ x ∈ l, POrd.le x.2 it.2 = true := by
  have hle : ∀ a b : F64, POrd.le a b = (Flt.pcmp a b == some .lt || Flt.pcmp a b == some .eq) := fun _ _ => rfl
  have cmp : ∀ a b : F64, a ≠ .nan → b ≠ .nan → (Flt.pcmp a b = some .gt ∧ POrd.le b a = true) ∨ (Flt.pcmp a b ≠ some .gt ∧ POrd.le a b = true) := by
    intro a b ha hb
    cases a with
    | nan => exact absurd rfl ha
    | inf s =>
      cases b with
      | nan => exact absurd rfl hb
      | inf t => cases s <;> cases t <;> simp [hle, Flt.pcmp]
      | fin t n h => cases s <;> simp [hle, Flt.pcmp]
    | fin s m h =>
      cases b with
      | nan => exact absurd rfl hb
      | inf t => cases t <;> simp [hle, Flt.pcmp]
      | fin t n h' =>
        rw [Flt.le_fin (a := .fin s m h) (b := .fin t n h') trivial trivial, Flt.le_fin (a := .fin t n h') (b := .fin s m h) trivial trivial]
        simp only [Flt.pcmp, Option.some.injEq, ne_eq, Flt.val]
        rw [compare_gt_iff_gt]
        rcases lt_or_ge (Flt.sval t n) (Flt.sval s m) with h | h
        · exact .inl ⟨h, decide_eq_true h.le⟩
        · exact .inr ⟨not_lt.2 h, decide_eq_true h⟩
  have tr : ∀ a b c : F64, POrd.le a b = true → POrd.le b c = true → POrd.le a c = true := by
    intro a b c h1 h2
    rw [LawfulPOrd.le_iff] at *
    obtain ⟨x, y, hx, hy, h⟩ := h1
    obtain ⟨y', z, hy', hz, h'⟩ := h2
    rw [hy] at hy'; cases hy'
    exact ⟨x, z, hx, hz, h.trans h'⟩
  have rfl' : ∀ a : F64, a ≠ .nan → POrd.le a a = true := fun a ha => by
    rcases cmp a a ha ha with h | h
    · exact h.2
    · exact h.2
  cases l with
  | nil => exact absurd rfl hne
  | cons x xs =>
    have main : ∀ (xs : List (B × F64)) (x : B × F64), x.2 ≠ .nan → (∀ y ∈ xs, y.2 ≠ .nan) →
        ∃ it, (it = x ∨ it ∈ xs) ∧ xs.foldl (fun x y => match (Flt.pcmp x.2 y.2).getD .lt with | .gt => x | _ => y) x = it ∧
          POrd.le x.2 it.2 = true ∧ ∀ y ∈ xs, POrd.le y.2 it.2 = true := by
      intro xs
      induction xs with
      | nil => intro x hx _; exact ⟨x, .inl rfl, rfl, rfl' _ hx, by simp⟩
      | cons y ys ih =>
        intro x hx hys
        have hy := hys y (by simp)
        rcases cmp x.2 y.2 hx hy with ⟨h1, h2⟩ | ⟨h1, h2⟩
        · obtain ⟨it, i1, i2, i3, i4⟩ := ih x hx (fun z hz => hys z (by simp [hz]))
          refine ⟨it, ?_, ?_, i3, ?_⟩
          · rcases i1 with i | i
            · exact .inl i
            · exact .inr (by simp [i])
          · rw [List.foldl_cons, h1]; exact i2
          · intro z hz
            rcases List.mem_cons.1 hz with rfl | hz
            · exact tr _ _ _ h2 i3
            · exact i4 z hz
        · obtain ⟨it, i1, i2, i3, i4⟩ := ih y hy (fun z hz => hys z (by simp [hz]))
          refine ⟨it, ?_, ?_, tr _ _ _ h2 i3, ?_⟩
          · rcases i1 with i | i
            · exact .inr (by simp [i])
            · exact .inr (by simp [i])
          · rw [List.foldl_cons]
            have : (match (Flt.pcmp x.2 y.2).getD .lt with | .gt => x | _ => y) = y := by
              cases hp : Flt.pcmp x.2 y.2 with
              | none => rfl
              | some o => cases o <;> first | rfl | exact absurd hp h1
            rw [this]; exact i2
          · intro z hz
            rcases List.mem_cons.1 hz with rfl | hz
            · exact i3
            · exact i4 z hz
    obtain ⟨it, i1, i2, i3, i4⟩ := main xs x (hl x (by simp)) (fun y hy => hl y (by simp [hy]))
    refine ⟨it, by simpa using i1, by rw [← i2]; rfl, ?_⟩
    intro z hz
    rcases List.mem_cons.1 hz with rfl | hz
    · exact i3
    · exact i4 z hz

/-! ## The text -/

variable {A V : Type} [Axis A]

/-- the displayed items are the first 50 bins with their values -/
theorem displayItems_spec {h : VecHistogram A V} {n : Nat} (ok : h.Ok n) (into : V → F64) :
    ∃ items, h.displayItems into = .ok items ∧ items.length = min 50 n ∧
      (∀ i, i < min 50 n → ∃ b v, items[i]? = some (b, into v) ∧ Axis.bin h.axes i = .ok (some b) ∧ h.values[i]? = some v) ∧
      (∀ x ∈ items, ∃ v ∈ h.values.take 50, x.2 = into v) ∧ (∀ v ∈ h.values.take 50, ∃ x ∈ items, x.2 = into v) := by
  obtain ⟨items, hi1, hi2, hi3⟩ := mapM_range (fun index => do
      let b ← Axis.bin h.axes index
      let b ← expect b
      let value ← expect (h.valueAtIndex index)
      return (b, into value)) (min 50 n) (fun i hi => by
    obtain ⟨b, hb⟩ := ok.lawful.bin_some i (by omega)
    have hv : h.valueAtIndex i = some (h.values[i]'(by rw [ok.size]; omega)) := by
      simp only [VecHistogram.valueAtIndex]; rw [List.getElem?_eq_getElem]
    exact ⟨(b, into (h.values[i]'(by rw [ok.size]; omega))), by simp only [hb, hv, expect, bind, Except.bind, pure, Except.pure]⟩)
  have hi3' : ∀ i, i < min 50 n → ∃ b v, items[i]? = some (b, into v) ∧ Axis.bin h.axes i = .ok (some b) ∧ h.values[i]? = some v := by
    intro i hi
    obtain ⟨x, hx, hf⟩ := hi3 i hi
    obtain ⟨b, hb⟩ := ok.lawful.bin_some i (by omega)
    have hv : h.values[i]? = some (h.values[i]'(by rw [ok.size]; omega)) := by rw [List.getElem?_eq_getElem]
    refine ⟨b, h.values[i]'(by rw [ok.size]; omega), ?_, hb, hv⟩
    simp only [hb, VecHistogram.valueAtIndex, hv, expect, bind, Except.bind, pure, Except.pure] at hf
    rw [hx]; cases hf; rfl
  have hitems : h.displayItems into = .ok items := by
    unfold VecHistogram.displayItems Axis.indices
    simp only [ok.lawful.numBins, bind, Except.bind, pure, Except.pure]
    rw [List.take_range]
    exact hi1
  have mem_take : ∀ {v i}, h.values[i]? = some v → i < 50 → v ∈ h.values.take 50 := by
    intro v i hv hi
    rw [List.mem_iff_getElem?]
    exact ⟨i, by rw [List.getElem?_take_of_lt hi]; exact hv⟩
  have hmem : ∀ x ∈ items, ∃ v ∈ h.values.take 50, x.2 = into v := by
    intro x hx
    obtain ⟨i, hi⟩ := List.mem_iff_getElem?.1 hx
    have hlt : i < min 50 n := by rw [← hi2]; exact (List.getElem?_eq_some_iff.1 hi).1
    obtain ⟨b, v, h1, h2, h3⟩ := hi3' i hlt
    rw [hi] at h1; cases h1
    exact ⟨v, mem_take h3 (by omega), rfl⟩
  have hmem' : ∀ v ∈ h.values.take 50, ∃ x ∈ items, x.2 = into v := by
    intro v hv
    obtain ⟨i, hi⟩ := List.mem_iff_getElem?.1 hv
    have hlt : i < (h.values.take 50).length := (List.getElem?_eq_some_iff.1 hi).1
    rw [List.length_take, ok.size] at hlt
    rw [List.getElem?_take_of_lt (by omega)] at hi
    obtain ⟨b, v', h1, h2, h3⟩ := hi3' i hlt
    rw [hi] at h3; cases h3
    exact ⟨_, List.mem_of_getElem? h1, rfl⟩
  exact ⟨items, hitems, hi2, hi3', hmem, hmem'⟩

/-- **C44 (partial).** Printing a dense histogram whose displayed values (the first 50 bins) are not NaN and whose largest displayed value is positive or
`+0.0`: it does not panic, writes a header with the number of dimensions, the number of bins and the sum over all bins, then one row for each of the first 50 bins in
order: the bin, right-aligned, and a bar of at most 50 marks. Values that are not positive have no marks; if the largest value is finite the
bar of `x` has `50 * x / max` marks (rounded down; up to `2^-40` in the ratio) and the bar of the largest has exactly 50. Missing from the full claim: NaN, all
values negative, and `-0.0` as largest value, for which it is false (counterexamples below). -/
theorem C44_display_partial [Disp (Axis.Interval A)] [Disp F64] {h : VecHistogram A V} {n : Nat} (ok : h.Ok n) (into : V → F64) (prec : Option Nat)
    (hnan : ∀ v ∈ h.values.take 50, into v ≠ .nan)
    (hscale : (∃ v ∈ h.values.take 50, POrd.gt (into v) (f64 0) = true) ∨
      (∀ v ∈ h.values.take 50, into v ≠ Flt.zero true) ∧ (h.values = [] ∨ ∃ v ∈ h.values.take 50, into v = Flt.zero false)) :
    ∃ rows, h.display into (fun _ => true) prec = .ok (("VecHistogram" ++ toString (Axis.numDim h.axes) ++ "D(" ++ toString n ++ " bins, sum=" ++
        Disp.fmt none ((h.values.map into).foldl Flt.add (f64 0)) ++ ")") :: rows, true) ∧
      rows.length = min 50 n ∧
      ∀ i, i < min 50 n → ∃ b v m, Axis.bin h.axes i = .ok (some b) ∧ h.values[i]? = some v ∧
        rows[i]? = some ("\n" ++ alignRight 16 (Disp.fmt (some (prec.getD 2)) b) ++ " | " ++ String.ofList (List.replicate m '#')) ∧
        m ≤ 50 ∧ (POrd.le (into v) (f64 0) = true → m = 0) ∧
        ∀ w ∈ h.values.take 50, (∀ w' ∈ h.values.take 50, POrd.le (into w') (into w) = true) → (into w).isFin → 0 < (into w).val →
          (into v).isFin → 0 ≤ (into v).val →
          50 * ((into v).val / (into w).val) - 1 - pow2 (-40) < m ∧ (m : ℚ) ≤ 50 * ((into v).val / (into w).val) + pow2 (-40) ∧
          ((into v).val = (into w).val → m = 50) := by
  have h0' : (f64 0).isFin ∧ (f64 0).val = 0 := by
    have := Flt.ofNat_spec (F := FFmt.f64) (n := 0) (by decide +kernel)
    exact_mod_cast this
  have hz : f64 0 = Flt.zero false := by decide +kernel
  obtain ⟨items, hitems, hi2, hi3', hmem, hmem'⟩ := displayItems_spec ok into
  have mem_take : ∀ {v i}, h.values[i]? = some v → i < 50 → v ∈ h.values.take 50 := by
    intro v i hv hi
    rw [List.mem_iff_getElem?]
    exact ⟨i, by rw [List.getElem?_take_of_lt hi]; exact hv⟩
  -- the scale
  set scale := VecHistogram.displayScale items with hsc
  have hscale' : (scale = .inf false ∨ ∃ m hm, scale = .fin false m hm) ∧
      (∀ v ∈ h.values.take 50, POrd.le (into v) scale = true) ∧ (items ≠ [] → ∃ v ∈ h.values.take 50, scale = into v) := by
    by_cases he : items = []
    · refine ⟨.inl (by rw [hsc, he]; rfl), ?_, fun h => absurd he h⟩
      intro v hv
      obtain ⟨x, hx, -⟩ := hmem' v hv
      rw [he] at hx; simp at hx
    · obtain ⟨it, m1, m2, m3⟩ := maxBy_spec items (fun x hx => by
        obtain ⟨v, hv, e⟩ := hmem x hx
        rw [e]; exact hnan v hv) he
      have hs : scale = it.2 := by rw [hsc]; unfold VecHistogram.displayScale; rw [m2]
      obtain ⟨v0, hv0, e0⟩ := hmem it m1
      have hall : ∀ v ∈ h.values.take 50, POrd.le (into v) scale = true := by
        intro v hv
        obtain ⟨x, hx, e⟩ := hmem' v hv
        rw [← e, hs]; exact m3 x hx
      refine ⟨?_, hall, fun _ => ⟨v0, hv0, by rw [hs, e0]⟩⟩
      have hn0 := hnan v0 hv0
      rw [← e0, ← hs] at hn0
      have hge : ∃ w, into w ≠ .nan ∧ (POrd.gt (into w) (f64 0) = true ∨ into w = Flt.zero false ∧ scale ≠ Flt.zero true) ∧ POrd.le (into w) scale = true := by
        rcases hscale with ⟨w, hw, hg⟩ | ⟨hnz, hc⟩
        · exact ⟨w, hnan w hw, .inl hg, hall w hw⟩
        · rcases hc with hc | ⟨w, hw, hg⟩
          · rw [hc] at hv0; simp at hv0
          · exact ⟨w, hnan w hw, .inr ⟨hg, by rw [hs, e0]; exact hnz v0 hv0⟩, hall w hw⟩
      obtain ⟨w, hwn, hw1, hw2⟩ := hge
      clear_value scale
      have hle : ∀ a b : F64, POrd.le a b = (Flt.pcmp a b == some .lt || Flt.pcmp a b == some .eq) := fun _ _ => rfl
      cases hscl : scale with
      | nan => exact absurd hscl hn0
      | inf s =>
        cases s
        · exact .inl rfl
        · exfalso
          rw [hscl, hle] at hw2
          have hwinf : into w = .inf true := by
            cases hw' : into w with
            | nan => exact absurd hw' hwn
            | inf t => rw [hw'] at hw2; cases t <;> simp [Flt.pcmp] at hw2 ⊢
            | fin => rw [hw'] at hw2; simp [Flt.pcmp] at hw2
          rw [hwinf] at hw1
          rcases hw1 with hw1 | hw1
          · have : (Flt.pcmp (.inf true) (f64 0) == some .gt) = true := hw1
            rw [hz] at this; simp [Flt.pcmp, Flt.zero] at this
          · simp [Flt.zero] at hw1
      | fin s m hm =>
        right
        cases s
        · exact ⟨m, hm, rfl⟩
        · exfalso
          have hm0 := hm.nonneg
          rw [hscl] at hw2 hw1
          have hwfin : (into w).isFin ∨ into w = .inf true := by
            cases hw' : into w with
            | nan => exact absurd hw' hwn
            | inf t =>
              rw [hw', hle] at hw2
              cases t
              · simp [Flt.pcmp] at hw2
              · exact .inr rfl
            | fin => exact .inl trivial
          rcases hwfin with hwfin | hwinf
          · rw [Flt.le_fin (b := .fin true m hm) hwfin trivial] at hw2
            have hw2 : (into w).val ≤ -m := of_decide_eq_true hw2
            rcases hw1 with hw1 | ⟨hw1, hw3⟩
            · rw [Flt.gt_fin hwfin h0'.1, h0'.2] at hw1
              have := of_decide_eq_true hw1
              linarith
            · rw [hw1] at hw2
              have : (0 : ℚ) ≤ -m := hw2
              have : m = 0 := by linarith
              subst this
              exact hw3 rfl
          · rw [hwinf] at hw1
            rcases hw1 with hw1 | hw1
            · have : (Flt.pcmp (.inf true) (f64 0) == some .gt) = true := hw1
              rw [hz] at this; simp [Flt.pcmp, Flt.zero] at this
            · simp [Flt.zero] at hw1
  obtain ⟨hs1, hs2, hs3⟩ := hscale'
  -- bars
  have hbar : ∀ v ∈ h.values.take 50, barLen (into v) scale ≤ 50 ∧ (POrd.le (into v) (f64 0) = true → barLen (into v) scale = 0) := by
    intro v hv
    refine ⟨?_, fun h0 => barLen_nonpos (Flt.nonPos_of_le h0) hs1⟩
    rcases hs1 with hs1 | ⟨m, hm, hs1⟩
    · rw [hs1, barLen_inf]; omega
    · have hle := hs2 v hv
      have hnv := hnan v hv
      by_cases hnp : (into v).NonPos
      · rw [barLen_nonpos hnp (.inr ⟨m, hm, hs1⟩)]; omega
      · have hfin : (into v).isFin ∧ 0 < (into v).val := by
          cases hv' : into v with
          | nan => exact absurd hv' hnv
          | inf t =>
            exfalso
            cases t
            · rw [hv', hs1] at hle
              have : (Flt.pcmp (.inf false) (.fin false m hm) == some .lt || Flt.pcmp (.inf false) (.fin false m hm) == some .eq) = true := hle
              simp [Flt.pcmp] at this
            · rw [hv'] at hnp; exact hnp rfl
          | fin t k hk =>
            refine ⟨trivial, ?_⟩
            rw [hv'] at hnp
            have hnp : ¬ (t = true ∨ k = 0) := hnp
            push Not at hnp
            have : t = false := by simpa using hnp.1
            subst this
            exact lt_of_le_of_ne hk.nonneg (Ne.symm hnp.2)
        have hsf : scale.isFin := by rw [hs1]; trivial
        rw [Flt.le_fin hfin.1 hsf] at hle
        have hle := of_decide_eq_true hle
        obtain ⟨e, b0, b1⟩ := barLen_pos hfin.1 hsf hfin.2.le (lt_of_lt_of_le hfin.2 hle) hle
        rw [e]
        have := Int.floor_le (FFmt.f64.rs (50 * FFmt.f64.rs ((into v).val / scale.val)))
        have : (⌊FFmt.f64.rs (50 * FFmt.f64.rs ((into v).val / scale.val))⌋ : ℚ) ≤ 50 := by linarith
        have : ⌊FFmt.f64.rs (50 * FFmt.f64.rs ((into v).val / scale.val))⌋ ≤ 50 := by exact_mod_cast this
        omega
  -- rows
  have hrow : ∀ x ∈ items, VecHistogram.displayRow (prec.getD 2) scale x =
      .ok ("\n" ++ padLeft16 (Disp.fmt (some (prec.getD 2)) x.1) ++ " | " ++ String.ofList (List.replicate (barLen x.2 scale) '#')) := by
    intro x hx
    obtain ⟨v, hv, e⟩ := hmem x hx
    have hb := (hbar v hv).1
    rw [← e] at hb
    have hu := usize_gt_64
    unfold VecHistogram.displayRow
    change (hashes (barLen x.2 scale) >>= _) = _
    unfold hashes
    rw [if_pos (by omega)]; rfl
  rcases mapM_res (VecHistogram.displayRow (prec.getD 2) scale) items with ⟨rows, r1, r2, r3⟩ | ⟨p, x, h1, h2, h3⟩
  swap
  · rw [hrow x h2] at h3; cases h3
  refine ⟨rows, ?_, by rw [r2, hi2], ?_⟩
  · unfold VecHistogram.display VecHistogram.displayHeader VecHistogram.displaySum VecHistogram.valuesIter
    simp only [ok.lawful.numBins, hitems, bind, Except.bind, pure, Except.pure, Bool.not_true, Bool.false_eq_true, if_false, if_true]
    rw [← hsc, r1, hz]
    simp only [Except.ok.injEq, Prod.mk.injEq, and_true, List.cons.injEq]
    refine ⟨trivial, ?_⟩
    rw [show (fun r : String × Nat => some r.1) = some ∘ Prod.fst from rfl, List.filterMap_eq_map, List.zipIdx_map_fst]
  · intro i hi
    obtain ⟨b, v, e1, e2, e3⟩ := hi3' i hi
    have hv := mem_take e3 (by omega)
    obtain ⟨t, t1, t2⟩ := r3 i _ e1
    rw [hrow _ (List.mem_of_getElem? e1)] at t1
    cases t1
    refine ⟨b, v, barLen (into v) scale, e2, e3, t2, (hbar v hv).1, (hbar v hv).2, ?_⟩
    intro w hw hmax hwf hw0 hvf hv0
    have hne : items ≠ [] := by rintro rfl; simp at e1
    obtain ⟨v0, hv0', es⟩ := hs3 hne
    -- the scale has the value of the largest
    have hsf : scale.isFin ∧ scale.val = (into w).val := by
      have a1 := hs2 w hw
      have a2 := hmax v0 hv0'
      rw [← es] at a2
      rcases hs1 with hs1 | ⟨m, hm, hs1⟩
      · exfalso
        rw [hs1] at a2
        have : (Flt.pcmp (.inf false) (into w) == some .lt || Flt.pcmp (.inf false) (into w) == some .eq) = true := a2
        cases hw' : into w with
        | nan => rw [hw'] at hwf; exact hwf
        | inf => rw [hw'] at hwf; exact hwf
        | fin => rw [hw'] at this; simp [Flt.pcmp] at this
      · have hf : scale.isFin := by rw [hs1]; trivial
        rw [Flt.le_fin hwf hf] at a1
        rw [Flt.le_fin hf hwf] at a2
        exact ⟨hf, le_antisymm (of_decide_eq_true a2) (of_decide_eq_true a1)⟩
    have hle : (into v).val ≤ (into w).val := by
      have := hmax v hv
      rw [Flt.le_fin hvf hwf] at this
      exact of_decide_eq_true this
    obtain ⟨e, b0, b1⟩ := barLen_pos hvf hsf.1 hv0 (by rw [hsf.2]; exact hw0) (by rw [hsf.2]; exact hle)
    rw [hsf.2] at e b0 b1
    set q := (into v).val / (into w).val with hq
    have q0 : 0 ≤ q := div_nonneg hv0 hw0.le
    have q1 : q ≤ 1 := by rw [hq, div_le_one hw0]; exact hle
    have r1 := abs_le.1 (rs64_abs q0 (by linarith))
    have p46 : pow2 (-46) * 64 = pow2 (-40) := by decide +kernel
    have p46' := pow2_pos (-46)
    have hr1 : FFmt.f64.rs q ≤ 1 := by
      have := FFmt.rs_mono FFmt.f64 q1
      have h1 := rs64_nat 1 (by norm_num)
      push_cast at h1
      rwa [h1] at this
    have r2 := abs_le.1 (rs64_abs (x := 50 * FFmt.f64.rs q) (by have := FFmt.rs_pos_le FFmt.f64 q0; linarith) (by linarith))
    have f1 := Int.floor_le (FFmt.f64.rs (50 * FFmt.f64.rs q))
    have f2 := Int.lt_floor_add_one (FFmt.f64.rs (50 * FFmt.f64.rs q))
    have f0 : 0 ≤ ⌊FFmt.f64.rs (50 * FFmt.f64.rs q)⌋ := Int.floor_nonneg.2 b0
    have fc : ((barLen (into v) scale : ℕ) : ℚ) = (⌊FFmt.f64.rs (50 * FFmt.f64.rs q)⌋ : ℚ) := by
      rw [e]
      have : ((⌊FFmt.f64.rs (50 * FFmt.f64.rs q)⌋.toNat : ℤ) : ℚ) = (⌊FFmt.f64.rs (50 * FFmt.f64.rs q)⌋ : ℚ) := by rw [Int.toNat_of_nonneg f0]
      exact_mod_cast this
    rw [fc]
    refine ⟨by linarith, by linarith, ?_⟩
    intro heq
    have hq1 : q = 1 := by rw [hq, heq, div_self hw0.ne']
    have a1 := rs64_nat 1 (by norm_num)
    have a2 := rs64_nat 50 (by norm_num)
    push_cast at a1 a2
    rw [e, hq1, a1, mul_one, a2]
    rfl

/-- **C44 is false for negated histograms.** If every displayed value is `-0.0` or negative (and both occur), printing panics: the bar of a negative value
has `50 * (v / -0.0) = +inf` marks. `&hist * &-1.0` produces such a histogram from any with an empty bin and a non-empty one (`C44_counterexample_negated`). -/
theorem C44_negative_zero_panics [Disp (Axis.Interval A)] [Disp F64] {h : VecHistogram A V} {n : Nat} (ok : h.Ok n) (into : V → F64) (prec : Option Nat)
    (hall : ∀ v ∈ h.values.take 50, into v = Flt.zero true ∨ (into v).isFin ∧ (into v).val < 0)
    (hz : ∃ v ∈ h.values.take 50, into v = Flt.zero true) (hneg : ∃ v ∈ h.values.take 50, (into v).val < 0) :
    h.display into (fun _ => true) prec = .error .capacityOverflow := by
  obtain ⟨items, hitems, hi2, hi3', hmem, hmem'⟩ := displayItems_spec ok into
  obtain ⟨vz, hvz, ez⟩ := hz
  obtain ⟨vn, hvn, en⟩ := hneg
  obtain ⟨xz, hxz, exz⟩ := hmem' vz hvz
  obtain ⟨xn, hxn, exn⟩ := hmem' vn hvn
  obtain ⟨it, m1, m2, m3⟩ := maxBy_spec items (fun x hx => by
    obtain ⟨v, hv, e⟩ := hmem x hx
    rw [e]
    rcases hall v hv with h | h
    · rw [h]; simp [Flt.zero]
    · intro hn; rw [hn] at h; exact h.1) (by rintro rfl; simp at hxz)
  have hs : VecHistogram.displayScale items = Flt.zero true := by
    unfold VecHistogram.displayScale
    rw [m2]
    obtain ⟨v0, hv0, e0⟩ := hmem it m1
    show it.2 = _
    have hge := m3 xz hxz
    rw [exz, ez, e0] at hge
    rcases hall v0 hv0 with h | h
    · rw [e0, h]
    · rw [Flt.le_fin (a := Flt.zero true) trivial h.1] at hge
      have : (Flt.zero true : F64).val ≤ (into v0).val := of_decide_eq_true hge
      have hv : (Flt.zero true : F64).val = 0 := by simp [Flt.zero, Flt.val, Flt.sval]
      rw [hv] at this
      linarith [h.2]
  have hbad : VecHistogram.displayRow (prec.getD 2) (Flt.zero true) xn = .error .capacityOverflow := by
    unfold VecHistogram.displayRow
    have hinf : Flt.mul (f64 50) (Flt.div xn.2 (Flt.zero true)) = .inf false := by
      have hd : Flt.div xn.2 (Flt.zero true) = .inf false := by
        rw [exn]
        cases hv : into vn with
        | nan => rw [hv] at en; simp [Flt.val] at en
        | inf => rw [hv] at en; simp [Flt.val] at en
        | fin s m hm =>
          rw [hv] at en
          have hm0 := hm.nonneg
          cases s
          · have : m < 0 := en
            linarith
          · have hne : m ≠ 0 := by
              rintro rfl
              have : (-0 : ℚ) < 0 := en
              simp at this
            simp [Flt.div, Flt.zero, hne]
      rw [hd]
      decide +kernel
    rw [hinf]
    have hu := usize_gt_64
    have : hashes (Flt.asUsize (.inf false : F64)) = .error .capacityOverflow := by
      show hashes (usizeSize - 1) = _
      unfold hashes
      rw [if_neg (by omega)]
    simp only [this, bind, Except.bind]
  have herr : ∀ x p, VecHistogram.displayRow (B := Axis.Interval A) (prec.getD 2) (Flt.zero true) x = .error p → p = .capacityOverflow := by
    intro x p h
    unfold VecHistogram.displayRow hashes at h
    split at h
    · cases h
    · cases h; rfl
  unfold VecHistogram.display VecHistogram.displayHeader
  simp only [ok.lawful.numBins, hitems, bind, Except.bind, pure, Except.pure, Bool.not_true, Bool.false_eq_true, if_false, hs]
  rcases mapM_res (VecHistogram.displayRow (prec.getD 2) (Flt.zero true)) items with ⟨rows, r1, r2, r3⟩ | ⟨p, x, h1, h2, h3⟩
  · obtain ⟨i, hi⟩ := List.mem_iff_getElem?.1 hxn
    obtain ⟨b, hb, -⟩ := r3 i _ hi
    rw [hbad] at hb; cases hb
  · rw [h1, herr x p h3]

end

/-! ## Counterexamples -/

section
variable {A V : Type} [cfg : Cfg] [Axis A]
/-- **C44 (failing sinks).** What `Display` does when the sink it writes to fails, write by write (`ok k`: does write `k` succeed; write 0 is the header): a failing header is reported and
nothing else is written; a failing row is dropped, the other rows are still written, and `Ok` is returned. Panics do not depend on the sink. -/
theorem C44_sink_errors_ignored [Disp (Axis.Interval A)] [Disp F64] (h : VecHistogram A V) (into : V → F64) (ok : Nat → Bool) (prec : Option Nat) :
    (ok 0 = false → (∃ n, Axis.numBins h.axes = .ok n) → h.display into ok prec = .ok ([], false)) ∧
    (ok 0 = true → ∀ p, h.display into (fun _ => true) prec = .error p → h.display into ok prec = .error p) ∧
    (ok 0 = true → ∀ text r, h.display into (fun _ => true) prec = .ok (text, r) →
      r = true ∧ h.display into ok prec = .ok (text.zipIdx.filterMap (fun t => if ok t.2 then some t.1 else none), true)) := by
  refine ⟨?_, ?_, ?_⟩
  · rintro h0 ⟨n, hn⟩
    simp [VecHistogram.display, VecHistogram.displayHeader, hn, h0, Bind.bind, Except.bind, pure, Except.pure]
  · intro h0 p hp
    unfold VecHistogram.display at hp ⊢
    rcases hh : VecHistogram.displayHeader into h with _ | header
    · simpa [hh, Bind.bind, Except.bind] using hp
    rcases hv : VecHistogram.displayItems into h with _ | values
    · simpa [hh, hv, h0, Bind.bind, Except.bind, pure, Except.pure] using hp
    rcases hr : values.mapM (VecHistogram.displayRow (prec.getD 2) (VecHistogram.displayScale values)) with _ | rows
    · simpa [hh, hv, hr, h0, Bind.bind, Except.bind, pure, Except.pure] using hp
    · simp [hh, hv, hr, Bind.bind, Except.bind, pure, Except.pure] at hp
  · intro h0 text r hp
    unfold VecHistogram.display at hp ⊢
    rcases hh : VecHistogram.displayHeader into h with _ | header
    · simp [hh, Bind.bind, Except.bind] at hp
    rcases hv : VecHistogram.displayItems into h with _ | values
    · simp [hh, hv, Bind.bind, Except.bind, pure, Except.pure] at hp
    rcases hr : values.mapM (VecHistogram.displayRow (prec.getD 2) (VecHistogram.displayScale values)) with _ | rows
    · simp [hh, hv, hr, Bind.bind, Except.bind, pure, Except.pure] at hp
    · simp [hh, hv, hr, Bind.bind, Except.bind, pure, Except.pure] at hp
      obtain ⟨rfl, rfl⟩ := hp
      simp [hh, hv, hr, h0, Bind.bind, Except.bind, pure, Except.pure, List.zipIdx_cons]
end

section
attribute [local instance] dbg64

/-- any formatting of coordinates and numbers will do -/
local instance : Disp F64 := ⟨fun _ _ => "x"⟩
local instance : Disp String := ⟨fun _ s => s⟩
local instance : Disp (@Axis.Interval (CategoryNoFlow String) dbg64 _) := inferInstanceAs (Disp (SingleValueBinInterval String))

/-- **C44 is false (1).** The histogram obtained by filling one of two bins and multiplying by `-1.0` cannot be printed: `Display` panics. -/
theorem C44_counterexample_negated :
    ∃ h h' m : VecHistogram (CategoryNoFlow String) F64, VecHistogram.new exAxis = .ok h ∧
      h.callAll [.fillWith "a" (f64 1)] = (h', none) ∧ h'.opScalar .mul (f64 (-1)) = .ok m ∧
      m.display id (fun _ => true) none = .error .capacityOverflow := by
  refine ⟨_, _, _, rfl, rfl, rfl, ?_⟩
  decide +kernel

/-- **C44 is false (2).** If all values are negative the *smallest* has the longest bar: bars are longer than 50 marks without limit. -/
theorem C44_counterexample_all_negative :
    (VecHistogram.display (A := CategoryNoFlow String) id (fun _ => true) none ⟨exAxis, [f64 (-3), f64 (-1)]⟩).map (fun r => r.1.map String.length) =
      .ok [29, 20 + 150, 20 + 50] := by
  decide +kernel

/-- **C44 is false (3).** NaN hides larger values that come before it: the bar of `5.0` has 250 marks. -/
theorem C44_counterexample_nan :
    barLen (f64 5) (VecHistogram.displayScale (B := Nat) [(0, f64 5), (1, .nan), (2, f64 1)]) = 250 := by
  decide +kernel

/-- a sink that fails after the header: `fmt` still returns `Ok` -/
example : (VecHistogram.display (A := CategoryNoFlow String) id (fun k => k == 0) none ⟨exAxis, [f64 3, f64 1]⟩).map (fun r => (r.1.length, r.2)) = .ok (1, true) := by
  decide +kernel

/-- an ordinary histogram -/
example : VecHistogram.display (A := CategoryNoFlow String) id (fun _ => true) none ⟨exAxis, [f64 3, f64 1]⟩ =
    .ok (["VecHistogram1D(2 bins, sum=x)", "\n             {a} | ##################################################",
      "\n             {b} | ################"], true) := by
  decide +kernel

/-- non-vacuity of `C44_display_partial` and `C44_negative_zero_panics` -/
example : VecHistogram.Ok (⟨exAxis, [f64 3, f64 1]⟩ : VecHistogram (CategoryNoFlow String) F64) 2 ∧
    VecHistogram.Ok (⟨exAxis, [f64 (-3), Flt.zero true]⟩ : VecHistogram (CategoryNoFlow String) F64) 2 ∧ POrd.gt (f64 3) (f64 0) = true ∧ (f64 (-3)).val < 0 :=
  ⟨⟨exAxis_lawful, rfl⟩, ⟨exAxis_lawful, rfl⟩, by decide +kernel, by decide +kernel⟩

end
end NdHist
