import Verif.SpecContent
import Verif.Props.Axes
import Verif.Props.Fill
import Verif.Props.Access
import Verif.Props.UniformFloatExact
/-!
# C51: the content of a bin is the data covered by the interval reported for it
-/
namespace NdHist
open Classical POrd RNum

/-! ## Tuples -/

section
variable [Cfg]
theorem TupFaithful.lawful : {ts : List AxTy} → {as : Tup ts} → {ns : List Nat} → {cov : TupCovers ts} → {dom : TupDom ts} →
    TupFaithful as ns cov dom → TupLawful as ns
  | [], _, _, _, _, h => h
  | _ :: _, (_, _), _, (_, _), (_, _), ⟨n, ns', h1, h2, h3⟩ => ⟨n, ns', h1, h2.lawful, h3.lawful⟩

theorem TupFaithful.total : {ts : List AxTy} → {as : Tup ts} → {ns : List Nat} → {cov : TupCovers ts} → {dom : TupDom ts} →
    TupFaithful as ns cov dom → ∀ c, InDom dom c → TupTotal as c
  | [], _, _, _, _, _ => fun _ _ => trivial
  | _ :: _, (_, _), _, (_, _), (_, _), ⟨_, _, _, h2, h3⟩ => fun (c, cs) hd => ⟨h2.total c hd.1, h3.total cs hd.2⟩

theorem TupFaithful.iff : {ts : List AxTy} → {as : Tup ts} → {ns : List Nat} → {cov : TupCovers ts} → {dom : TupDom ts} →
    TupFaithful as ns cov dom → ∀ c, InDom dom c → ∀ is bs, InGrid ns is → BinsOf as is bs → (IndexOf as c is ↔ CoversAll cov bs c)
  | [], _, _, _, _, h => fun c _ is bs _ hb => by
    constructor
    · intro _; trivial
    · intro _; exact hb
  | _ :: _, (a, as), _, (cv, cvs), (d, ds), ⟨n, ns', h1, h2, h3⟩ => fun (c, cs) hd is (b, bs) hg hb => by
    obtain ⟨i, is', rfl, hb1, hb2⟩ := hb
    subst h1
    obtain ⟨hlt, hg'⟩ := List.forall₂_cons.1 hg
    have k1 := h2.index_iff c hd.1 i b hlt hb1
    have k2 := h3.iff cs hd.2 is' bs hg' hb2
    show (∃ i' is'', i :: is' = i' :: is'' ∧ Axis.index a c = .ok (some i') ∧ IndexOf as cs is'') ↔ cv b c ∧ CoversAll cvs bs cs
    rw [← k1, ← k2]
    constructor
    · rintro ⟨i', is'', he, hi, his⟩
      cases he; exact ⟨hi, his⟩
    · rintro ⟨hi, his⟩; exact ⟨i, is', rfl, hi, his⟩

/-- tuples of faithful axes are faithful -/
theorem C51_tuple {t₀ t₁ : AxTy} {ts : List AxTy} {item : Tup (t₀ :: t₁ :: ts)} {ns : List Nat}
    {cov : TupCovers (t₀ :: t₁ :: ts)} {dom : TupDom (t₀ :: t₁ :: ts)} (hf : TupFaithful item ns cov dom)
    (hpos : ∀ n ∈ ns, 0 < n) (hfit : ns.prod < usizeSize) {a : AxesTuple t₀ t₁ ts} (ha : AxesTuple.fromTuple item = .ok a) :
    FaithfulAxis a ns.prod (CoversAll cov) (InDom dom) := by
  have hl := hf.lawful
  refine ⟨C25_lawful_tuple hl hpos hfit ha, fun c hc => (C22_tuple_none hl hpos hfit ha c (hf.total c hc)).2, ?_⟩
  intro c hc N b hN hb
  obtain ⟨is, bs, hg, hN', hb', hbs, huniq⟩ := C21_bin_numbering hl hpos hfit ha hN
  have : b = bs := by
    have hb2 : a.bin N = .ok (some b) := hb
    rw [hb'] at hb2; simpa using hb2.symm
  subst this
  rw [← hf.iff c hc is b hg hbs]
  obtain ⟨_, hidx⟩ := C20_index_formula hl hpos hfit ha
  show a.index c = .ok (some N) ↔ _
  rw [hidx]
  constructor
  · rintro ⟨js, hjs, hj, _⟩
    have := huniq js (hjs.inGrid hl) hj.symm
    rwa [← this]
  · intro h
    exact ⟨is, h, hN'.symm, hN⟩

theorem C51_tuple1 {X : Type} [Axis X] {x : X} {n : Nat} {cov dom} (hf : FaithfulAxis x n cov dom) {a : AxesTuple1 X}
    (ha : AxesTuple1.fromTuple x = .ok a) : FaithfulAxis a n cov dom := by
  obtain ⟨a', ha', hl⟩ := C25_lawful_tuple1 hf.lawful
  have : a = a' := by rw [ha] at ha'; exact Except.ok.inj ha'
  subst this
  have hx : a.axis = x := by
    simp [AxesTuple1.fromTuple, hf.lawful.numBins] at ha
    rw [← ha]
  subst hx
  exact ⟨hl, hf.total, hf.index_iff⟩

end

/-! ## The library's axes are faithful -/

section
variable [cfg : Cfg] {τ : IntTy}

/-- C51: uniform axes with integer coordinates (hypotheses as for C01 and C02) -/
theorem C51_uniform_int {num : Nat} {low step : MInt τ} {a : Uniform (MInt τ)}
    (hnew : Uniform.withStepSize num low step = .ok (.ok a))
    (hfit : Cfg.checked = false → (num : ℤ) * step.val ≤ τ.max ∧ low.val + num * step.val ≤ τ.max)
    (hnum : num + 2 < usizeSize) (hbin : (num : ℤ) * (num * step.val) ≤ τ.max) :
    FaithfulAxis a (num + 2) (BinInterval.Covers (T := MInt τ)) (fun _ => True) := by
  refine ⟨C25_lawful_uniform_int hnew hfit hnum hbin, ?_, ?_⟩
  · intro c _
    obtain ⟨i, hi, -⟩ := C01_uniform_int_index hnew hfit (by omega) c
    exact ⟨_, hi⟩
  · intro c _ i b hi hb
    obtain ⟨j, hj, hj1, h0, hlast, hmid⟩ := C01_uniform_int_index hnew hfit (by omega) c
    obtain ⟨-, b0, ⟨high, hhigh, blast⟩, bmid, -⟩ := C02_uniform_int_bins_partial hnew hfit hnum
    have hidx : Axis.index a c = .ok (some i) ↔ j = i := by
      show a.index c = _ ↔ _
      rw [hj]; simp
    rw [hidx]
    have hb' : a.bin i = .ok (some b) := hb
    rcases Nat.eq_zero_or_pos i with rfl | hipos
    · rw [b0] at hb'
      cases hb'
      rw [h0]
      show _ ↔ @POrd.lt (MInt τ) _ c low = true
      rw [MInt.lt_iff]; simp
    · obtain ⟨k, rfl⟩ : ∃ k, i = k + 1 := ⟨i - 1, by omega⟩
      by_cases hk : k = num
      · subst hk
        rw [blast] at hb'
        cases hb'
        rw [hlast, ← hhigh]
        show _ ↔ @POrd.le (MInt τ) _ high c = true
        rw [MInt.le_iff]; simp
      · have hkn : k < num := by omega
        have hstep : 0 ≤ (num : ℤ) * step.val := by
          by_contra hneg
          have h3 := h0.1
          have : low.val + num * step.val < low.val := by linarith
          -- the value just at the upper end would be in two bins: use the axis law on `low`
          obtain ⟨j', hj', -, g0, g1, -⟩ := C01_uniform_int_index hnew hfit (by omega) low
          have a1 : j' ≠ 0 := fun h => lt_irrefl _ (g0.1 h)
          have a2 : j' = num + 1 := g1.2 (by linarith)
          obtain ⟨jh, hjh, -, q0, q1, -⟩ := C01_uniform_int_index hnew hfit (by omega) high
          have := q0.2 (by rw [hhigh]; linarith)
          have := q1.2 (by rw [hhigh])
          omega
        have hle : ((k : ℤ) + 1) * (num * step.val) ≤ τ.max := by
          refine le_trans (mul_le_mul_of_nonneg_right ?_ hstep) hbin
          exact_mod_cast hkn
        obtain ⟨s, e, hs, he, hbk⟩ := bmid k hkn hle
        rw [hbk] at hb'
        cases hb'
        rw [hmid k hkn, ← hs, ← he]
        show _ ↔ @POrd.le (MInt τ) _ s c = true ∧ @POrd.lt (MInt τ) _ c e = true
        rw [MInt.le_iff, MInt.lt_iff]; simp

/-- C51: dropping the flow bins of a faithful uniform axis -/
theorem C51_uniform_noflow {T : Type} [RNum T] {u : Uniform T} {covers : BinInterval T → T → Prop} {dom : T → Prop}
    (hf : FaithfulAxis u (u.num + 2) covers dom) : FaithfulAxis (UniformNoFlow.mk u) u.num covers dom := by
  have hn : u.num + 2 < usizeSize := hf.lawful.fits
  refine ⟨C25_lawful_uniform_noflow hf.lawful, ?_, ?_⟩
  · intro c hc
    obtain ⟨o, ho⟩ := hf.total c hc
    cases o with
    | none =>
      refine ⟨none, ?_⟩
      show UniformNoFlow.index ⟨u⟩ c = _
      have ho' : u.index c = .ok none := ho
      unfold UniformNoFlow.index
      simp [ho', Uniform.numBins, uadd_ok hn]
    | some j =>
      have := hf.lawful.index_lt c j ho
      exact (C07_noflow_index u hn c j ho (by omega)).1
  · intro c hc i b hi hb
    have hb' : u.bin (i + 1) = .ok (some b) := by
      rw [← (C07_noflow_bin u i (by omega) (by omega)).1 hi]; exact hb
    have key := hf.index_iff c hc (i + 1) b (by omega) hb'
    rw [← key]
    obtain ⟨o, ho⟩ := hf.total c hc
    cases o with
    | none =>
      have ho' : u.index c = .ok none := ho
      constructor
      · intro h
        have h' : UniformNoFlow.index ⟨u⟩ c = .ok (some i) := h
        unfold UniformNoFlow.index at h'
        simp [ho', Uniform.numBins, uadd_ok hn] at h'
      · intro h; rw [ho] at h; simp at h
    | some j =>
      have := hf.lawful.index_lt c j ho
      have h1 := (C07_noflow_index u hn c j ho (by omega)).2.1 i
      show UniformNoFlow.index ⟨u⟩ c = .ok (some i) ↔ _
      rw [h1, ho]
      constructor
      · rintro ⟨rfl, -⟩; rfl
      · intro h; cases h; exact ⟨rfl, hi⟩

/-- C51: variable-width axes with distinct edges, for all coordinates but NaN -/
theorem C51_variable {T : Type} [POrd T] [LawfulPOrd T] [StdLib] {edges : List T} {a : Variable T}
    (hnew : Variable.new edges = .ok (.ok a)) (hmem : edges.length + 1 < usizeSize)
    (hd : edges.Pairwise (fun x y => POrd.eq x y = false)) :
    FaithfulAxis a (edges.length + 1) BinInterval.Covers (fun c => POrd.eq c c = true) := by
  refine ⟨C25_lawful_variable hnew hmem, ?_, ?_⟩
  · intro c _
    obtain ⟨i, hi, -⟩ := C11_variable_index hnew hd hmem c
    exact ⟨_, hi⟩
  · intro c hc i b _ hb
    rw [show Axis.index a c = a.index c from rfl, C11_index_iff_bin_covers hnew hd hmem c hc i]
    have hb' : a.bin i = .ok (some b) := hb
    rw [hb']; simp

/-- C51: variable-width axes without flow bins, with distinct edges; NaN is in no bin, as its interval says -/
theorem C51_variable_noflow {T : Type} [POrd T] [LawfulPOrd T] [StdLib] {edges : List T} {a : VariableNoFlow T}
    (hnew : VariableNoFlow.new edges = .ok (.ok a)) (hmem : edges.length + 1 < usizeSize)
    (hd : edges.Pairwise (fun x y => POrd.eq x y = false)) :
    FaithfulAxis a (edges.length - 1) BinInterval.Covers (fun _ => True) := by
  refine ⟨C25_lawful_variable_noflow hnew hmem, fun c _ => (C14_variable_noflow_covers hnew hmem hd c).1, ?_⟩
  intro c _ i b hi hb
  rw [show Axis.index a c = a.index c from rfl, C14_index_iff_bin_covers hnew hmem hd c i (by omega)]
  have hb' : a.bin i = .ok (some b) := hb
  rw [hb']; simp

/-- C51: category axes with distinct categories -/
theorem C51_category {T : Type} [DecidableEq T] (values : List T) (hd : values.Nodup) (hmem : values.length + 1 < usizeSize) :
    FaithfulAxis (Category.new values) (values.length + 1) (SingleValueBinInterval.Covers values) (fun _ => True) := by
  refine ⟨C25_lawful_category values hmem, ?_, ?_⟩
  · intro c _
    obtain ⟨i, hi, -⟩ := C17_category_repeated values hmem c
    exact ⟨_, hi⟩
  · intro c _ i b _ hb
    rw [show Axis.index (Category.new values) c = (Category.new values).index c from rfl, C16_index_iff_bin_covers values hd hmem c i]
    have hb' : (Category.new values).bin i = .ok (some b) := hb
    rw [hb']; simp

/-- C51: category axes without overflow bin, with distinct categories -/
theorem C51_category_noflow {T : Type} [DecidableEq T] (values : List T) (hd : values.Nodup) (hmem : values.length + 1 < usizeSize) :
    FaithfulAxis (CategoryNoFlow.new values) values.length (SingleValueBinInterval.Covers values) (fun _ => True) := by
  refine ⟨C25_lawful_category_noflow values hmem, ?_, ?_⟩
  · intro c _
    obtain ⟨h1, h2⟩ := C18_category_noflow_index values hmem c
    by_cases hc : c ∈ values
    · obtain ⟨i, hi, -⟩ := (h1 hc).2
      exact ⟨_, hi⟩
    · exact ⟨_, h2 hc⟩
  · intro c _ i b hi hb
    have hb' : (CategoryNoFlow.new values).bin i = .ok (some b) := hb
    obtain ⟨v, hv⟩ : ∃ v, values[i]? = some v := ⟨values[i], by simp [hi]⟩
    rw [(C18_category_noflow_bins values hmem).2.1 i v hv] at hb'
    cases hb'
    obtain ⟨h1, h2⟩ := C18_category_noflow_index values hmem c
    show (CategoryNoFlow.new values).index c = _ ↔ c = v
    constructor
    · intro h
      by_cases hc : c ∈ values
      · rw [(h1 hc).1] at h
        obtain ⟨i', hi', -, hm, -⟩ := C17_category_repeated values hmem c
        rw [hi'] at h
        have : i' = i := by simpa using h
        subst this
        have := (hm hc).1
        rw [hv] at this
        exact (Option.some.inj this).symm
      · rw [h2 hc] at h; simp at h
    · rintro rfl
      rw [(h1 (List.mem_of_getElem? hv)).1]
      exact (C16_category_index values hd c).1 i hv

/-- C51: cyclic uniform axes with integer coordinates, for the coordinates whose distance from `low` fits the type (as for C08) -/
theorem C51_uniform_cyclic_int {num : Nat} {low step : MInt τ} {a : UniformCyclic (MInt τ)}
    (hnew : UniformCyclic.withStepSize num low step = .ok (.ok a))
    (hfit : Cfg.checked = false → (num : ℤ) * step.val ≤ τ.max ∧ low.val + num * step.val ≤ τ.max)
    (hnum : num + 2 < usizeSize) (hbin : (num : ℤ) * (num * step.val) ≤ τ.max) :
    FaithfulAxis a num (BinInterval.CoversTurns (τ := τ) (num * step.val))
      (fun c : MInt τ => τ.min ≤ c.val - low.val ∧ c.val - low.val ≤ τ.max) := by
  obtain ⟨u, hu, rfl⟩ : ∃ u, Uniform.withStepSize num low step = .ok (.ok u) ∧ a = ⟨⟨u⟩⟩ := by
    unfold UniformCyclic.withStepSize UniformNoFlow.withStepSize at hnew
    cases hu : Uniform.withStepSize num low step with
    | error p => rw [hu] at hnew; simp at hnew
    | ok r =>
      rw [hu] at hnew
      cases r with
      | error e => simp at hnew
      | ok u => simp at hnew; exact ⟨u, rfl, hnew.symm⟩
  obtain ⟨h0, hnmax, hs, ⟨hf1, hf2⟩, e1, e2, e3, e4⟩ := Uniform.withStepSize_ok hu hfit
  subst e1
  have hF := C51_uniform_int hu hfit hnum hbin
  have hNF := C51_uniform_noflow hF
  obtain ⟨-, -, -, bmid, -⟩ := C02_uniform_int_bins_partial hu hfit hnum
  have hbins : ∀ k b, k < u.num → UniformNoFlow.bin ⟨u⟩ k = .ok (some b) →
      ∃ s e : MInt τ, b = .Bin s e ∧ s.val = low.val + k * step.val ∧ e.val = low.val + (k + 1) * step.val := by
    intro k b hk hb
    rw [(C07_noflow_bin u k (by omega) (by omega)).1 hk] at hb
    have hle : ((k : ℤ) + 1) * (u.num * step.val) ≤ τ.max := by
      refine le_trans (mul_le_mul_of_nonneg_right ?_ (by positivity)) hbin
      exact_mod_cast hk
    obtain ⟨s, e, hs, he, hbk⟩ := bmid k hk hle
    rw [hbk] at hb
    cases hb
    exact ⟨s, e, rfl, hs, he⟩
  refine ⟨C25_lawful_uniform_cyclic hF.lawful, ?_, ?_⟩
  · intro c hc
    obtain ⟨k, -, hk, -⟩ := C08_uniform_cyclic_int hnew hfit hnum c hc
    exact ⟨_, hk⟩
  · intro c hc i b hi hb
    obtain ⟨k, hk, hidx, t, t1, t2⟩ := C08_uniform_cyclic_int hnew hfit hnum c hc
    obtain ⟨s, e, rfl, hs1, he1⟩ := hbins i b hi hb
    have hlhs : Axis.index (UniformCyclic.mk (UniformNoFlow.mk u)) c = .ok (some i) ↔ k = i := by
      show @UniformCyclic.index (MInt τ) _ _ _ c = _ ↔ _
      rw [hidx]; simp
    rw [hlhs]
    constructor
    · rintro rfl
      exact ⟨t, by rw [hs1]; exact t1, by rw [he1]; exact t2⟩
    · rintro ⟨t', t1', t2'⟩
      rw [hs1] at t1'
      rw [he1] at t2'
      have hR : (0 : ℤ) < u.num * step.val := by positivity
      have b1 : (0 : ℤ) ≤ k * step.val := by positivity
      have b2 : (0 : ℤ) ≤ i * step.val := by positivity
      have b3 : ((k : ℤ) + 1) * step.val ≤ u.num * step.val := mul_le_mul_of_nonneg_right (by exact_mod_cast hk) hs.le
      have b4 : ((i : ℤ) + 1) * step.val ≤ u.num * step.val := mul_le_mul_of_nonneg_right (by exact_mod_cast hi) hs.le
      have htt : t = t' := by
        have d1 : (t - t') * (u.num * step.val) < 1 * (u.num * step.val) := by
          rw [sub_mul]; linarith
        have d2 : (t' - t) * (u.num * step.val) < 1 * (u.num * step.val) := by
          rw [sub_mul]; linarith
        have := lt_of_mul_lt_mul_right d1 hR.le
        have := lt_of_mul_lt_mul_right d2 hR.le
        omega
      subst htt
      have d1 : (k : ℤ) * step.val < (i + 1) * step.val := by linarith
      have d2 : (i : ℤ) * step.val < (k + 1) * step.val := by linarith
      have := lt_of_mul_lt_mul_right d1 hs.le
      have := lt_of_mul_lt_mul_right d2 hs.le
      omega

/-- C51: cyclic variable-width axes with distinct integer edges, for the coordinates whose distance from the first edge fits the type (as for C15) -/
theorem C51_variable_cyclic_int [StdLib] {edges : List (MInt τ)} {a : VariableCyclic (MInt τ)}
    (hnew : VariableCyclic.new edges = .ok (.ok a)) (hmem : edges.length + 1 < usizeSize) (hd : edges.Nodup) :
    ∃ lo hi : MInt τ, a.low = .ok lo ∧ a.high = .ok hi ∧ lo.val < hi.val ∧
      (hi.val - lo.val ≤ τ.max → FaithfulAxis a (edges.length - 1) (BinInterval.CoversTurns (τ := τ) (hi.val - lo.val))
        (fun c : MInt τ => τ.min ≤ c.val - lo.val ∧ c.val - lo.val ≤ τ.max)) := by
  obtain ⟨v, hv, rfl⟩ : ∃ v, VariableNoFlow.new edges = .ok (.ok v) ∧ a = ⟨v⟩ := by
    unfold VariableCyclic.new at hnew
    cases hu : VariableNoFlow.new edges with
    | error p => rw [hu] at hnew; simp at hnew
    | ok r =>
      rw [hu] at hnew
      cases r with
      | error e => simp at hnew
      | ok u => simp at hnew; exact ⟨u, rfl, hnew.symm⟩
  have c15 := fun c => C15_variable_cyclic_int_partial hnew hmem hd c
  obtain ⟨lo, hi, hlo, hhi, hlt, -⟩ := c15 ⟨0, τ.min_le_zero, by have := τ.max_ge; omega⟩
  have c15' : ∀ c : MInt τ, hi.val - lo.val ≤ τ.max → τ.min ≤ c.val - lo.val → c.val - lo.val ≤ τ.max →
      ∃ k, ∃ s e : MInt τ, k + 1 < edges.length ∧ VariableCyclic.index ⟨v⟩ c = .ok (some k) ∧
        VariableCyclic.bin ⟨v⟩ k = .ok (some (.Bin s e)) ∧
        ∃ t : ℤ, s.val ≤ c.val + t * (hi.val - lo.val) ∧ c.val + t * (hi.val - lo.val) < e.val := fun c => by
    obtain ⟨lo', hi', h1, h2, -, h⟩ := c15 c
    have e1 : lo' = lo := by rw [hlo] at h1; exact (Except.ok.inj h1).symm
    have e2 : hi' = hi := by rw [hhi] at h2; exact (Except.ok.inj h2).symm
    subst e1 e2
    exact h
  have hd' : edges.Pairwise (fun x y => POrd.eq x y = false) := by
    refine hd.imp ?_
    intro x y hxy
    rw [MInt.eq_iff]
    simp only [decide_eq_false_iff_not]
    exact fun h => hxy (MInt.ext h)
  refine ⟨lo, hi, hlo, hhi, hlt, fun hR => ⟨C25_lawful_variable_cyclic hnew hmem, ?_, ?_⟩⟩
  · intro c hc
    obtain ⟨k, s, e, -, h, -⟩ := c15' c hR hc.1 hc.2
    exact ⟨_, h⟩
  · intro c hc i b hi' hb
    obtain ⟨k, s, e, hk, hidx, hbk, t, t1, t2⟩ := c15' c hR hc.1 hc.2
    have hlhs : Axis.index (VariableCyclic.mk v) c = .ok (some i) ↔ k = i := by
      show @VariableCyclic.index (MInt τ) _ _ _ _ c = _ ↔ _
      rw [hidx]; simp
    rw [hlhs]
    constructor
    · rintro rfl
      have hb' : VariableCyclic.bin ⟨v⟩ k = .ok (some b) := hb
      rw [hbk] at hb'
      cases hb'
      exact ⟨t, t1, t2⟩
    · intro hcov
      obtain ⟨-, hbins, -⟩ := C14_variable_noflow_bins hv hmem
      have hvv := VariableNoFlow.new_ok hv
      obtain ⟨-, ⟨lo', l1, l2, -⟩, ⟨hi'', g1, g2, -⟩, -, -⟩ := C13_variable_bins hvv hmem
      have e1 : lo' = lo := by
        have : v.axis.low = .ok lo := hlo
        rw [l2] at this; exact Except.ok.inj this
      have e2 : hi'' = hi := by
        have : v.axis.high = .ok hi := hhi
        rw [g2] at this; exact Except.ok.inj this
      subst e1 e2
      obtain ⟨-, hsort⟩ := (C10_variable_new_sorts edges).2 _ hvv
      have hlen : v.axis.binEdges.length = edges.length := (((C10_variable_new_sorts edges).2 _ hvv).1).length_eq
      have hle : ∀ (p q : Nat) (x y : MInt τ), p ≤ q → v.axis.binEdges[p]? = some x → v.axis.binEdges[q]? = some y → x.val ≤ y.val := by
        intro p q x y hpq hx hy
        rcases Nat.eq_or_lt_of_le hpq with rfl | hlt
        · rw [hx] at hy; cases hy; exact le_rfl
        · obtain ⟨hp, rfl⟩ := List.getElem?_eq_some_iff.1 hx
          obtain ⟨hq, rfl⟩ := List.getElem?_eq_some_iff.1 hy
          have := List.pairwise_iff_getElem.1 hsort p q hp hq hlt
          rw [MInt.le_iff] at this
          simpa using this
      obtain ⟨si, ei, hsi, hei, hbi⟩ := hbins i (by omega)
      obtain ⟨sk, ek, hsk, hek, hbk'⟩ := hbins k hk
      have hb' : VariableNoFlow.bin v i = .ok (some b) := hb
      rw [hbi] at hb'
      cases hb'
      have hbk2 : VariableNoFlow.bin v k = .ok (some (.Bin s e)) := hbk
      rw [hbk'] at hbk2
      cases hbk2
      obtain ⟨t', t1', t2'⟩ := hcov
      have m1 := hle 0 i _ _ (by omega) l1 hsi
      have m2 := hle (i + 1) (edges.length - 1) _ _ (by omega) hei g1
      have m3 := hle 0 k _ _ (by omega) l1 hsk
      have m4 := hle (k + 1) (edges.length - 1) _ _ (by omega) hek g1
      have hR0 : 0 < hi''.val - lo'.val := by omega
      have htt : t = t' := by
        have d1 : (t - t') * (hi''.val - lo'.val) < 1 * (hi''.val - lo'.val) := by rw [sub_mul]; linarith
        have d2 : (t' - t) * (hi''.val - lo'.val) < 1 * (hi''.val - lo'.val) := by rw [sub_mul]; linarith
        have := lt_of_mul_lt_mul_right d1 hR0.le
        have := lt_of_mul_lt_mul_right d2 hR0.le
        omega
      subst htt
      let x : MInt τ := ⟨c.val + t * (hi''.val - lo'.val), si.min_le.trans t1', t2'.le.trans ei.le_max⟩
      have cov : ∀ s e : MInt τ, s.val ≤ x.val → x.val < e.val → (BinInterval.Bin s e).Covers x := by
        intro s e h1 h2
        show @POrd.le (MInt τ) _ s x = true ∧ @POrd.lt (MInt τ) _ x e = true
        rw [MInt.le_iff, MInt.lt_iff]
        exact ⟨decide_eq_true h1, decide_eq_true h2⟩
      have i1 := (C14_index_iff_bin_covers hv hmem hd' x i (by omega)).2 ⟨_, hbi, cov _ _ t1' t2'⟩
      have i2 := (C14_index_iff_bin_covers hv hmem hd' x k (by omega)).2 ⟨_, hbk', cov _ _ t1 t2⟩
      rw [i1] at i2
      simpa using i2.symm

/-- C51: float uniform axes whose bins are exact (hypotheses as for `C06_exact_partial`), for all coordinates but NaN -/
theorem C51_uniform_float {F : FFmt} {num : Nat} {low high : Flt F} {e z : Int} {a : Uniform (Flt F)} (hnew : Uniform.new num low high = .ok (.ok a))
    (hl : low.isFin) (hl0 : low.val = z * pow2 e) (hh : high.isFin) (hh0 : high.val = (z + num) * pow2 e) (he : F.emin ≤ e)
    (hz : |z| ≤ 2 ^ F.p) (hz' : |z + num| ≤ 2 ^ F.p)
    (hn : num + 2 < usizeSize) (hp : num * num < 2 ^ F.p) (hmax : num * (num * pow2 e) ≤ F.maxFin) :
    FaithfulAxis a (num + 2) BinInterval.Covers (fun c => c ≠ .nan ∧ (0 ≤ z ∨ F.rs (c.val - low.val) = c.val - low.val)) := by
  have hq : F.qmin ≤ e := by have := F.p_ge; unfold FFmt.qmin; omega
  obtain ⟨hnum, hnum0, e1, e2, hs1, hstepv, hedge⟩ := Uniform.exact_edges hnew hl hl0 hh hh0 hq hz hz' hp hmax
  subst hnum
  have hbin := Uniform.bin_flt a (by omega)
  -- the bins are disjoint
  have hpe := pow2_pos e
  have cov : ∀ i b, i < a.num + 2 → a.bin i = .ok (some b) → ∀ c : Flt F, b.Covers c →
      (0 < i → POrd.le (a.fedge (i - 1)) c = true) ∧ (i < a.num + 1 → POrd.lt c (a.fedge i) = true) := by
    have h0 := hedge 0 (by omega)
    have hN := hedge a.num le_rfl
    intro i b hi hb c hc
    rw [hbin] at hb
    have hkey : ∀ x y : Flt F, x.isFin → y.isFin → x.val = y.val → (POrd.lt c x = POrd.lt c y) ∧ POrd.le x c = POrd.le y c := by
      intro x y hx hy hxy
      constructor
      · rw [Bool.eq_iff_iff, LawfulPOrd.lt_iff, LawfulPOrd.lt_iff]
        show (∃ p q, c.key = some p ∧ x.key = some q ∧ p < q) ↔ (∃ p q, c.key = some p ∧ y.key = some q ∧ p < q)
        rw [Flt.key_fin hx, Flt.key_fin hy, hxy]
      · rw [Bool.eq_iff_iff, LawfulPOrd.le_iff, LawfulPOrd.le_iff]
        show (∃ p q, x.key = some p ∧ c.key = some q ∧ p ≤ q) ↔ (∃ p q, y.key = some p ∧ c.key = some q ∧ p ≤ q)
        rw [Flt.key_fin hx, Flt.key_fin hy, hxy]
    by_cases c0 : i = 0
    · subst c0
      rw [if_pos rfl] at hb
      cases hb
      refine ⟨fun h => absurd h (by omega), fun _ => ?_⟩
      have hc' : POrd.lt c a.low = true := hc
      rw [e1] at hc'
      rw [← (hkey low (a.fedge 0) hl h0.1 (by rw [h0.2, hl0]; simp)).1]
      exact hc'
    by_cases c1 : i = a.num + 1
    · subst c1
      rw [if_neg (by omega), if_pos rfl] at hb
      cases hb
      refine ⟨fun _ => ?_, fun h => absurd h (by omega)⟩
      have hc' : POrd.le a.high c = true := hc
      rw [e2] at hc'
      rw [Nat.add_sub_cancel, ← (hkey high (a.fedge a.num) hh hN.1 (by rw [hN.2, hh0])).2]
      exact hc'
    · rw [if_neg c0, if_neg c1, if_neg (by omega)] at hb
      cases hb
      exact ⟨fun _ => hc.1, fun _ => hc.2⟩
  have uniq : ∀ i j b b' c, i < j → j < a.num + 2 → a.bin i = .ok (some b) → a.bin j = .ok (some b') → b.Covers c → b'.Covers c → False := by
    intro i j b b' c hij hj hb hb' hc hc'
    have h1 := (cov i b (by omega) hb c hc).2 (by omega)
    have h2 := (cov j b' hj hb' c hc').1 (by omega)
    obtain ⟨f1, g1⟩ := hedge i (by omega)
    obtain ⟨f2, g2⟩ := hedge (j - 1) (by omega)
    obtain ⟨x, y, hx, hy, hlt⟩ := LawfulPOrd.lt_iff.1 h1
    obtain ⟨x', y', hx', hy', hle⟩ := LawfulPOrd.le_iff.1 h2
    change c.key = some x at hx
    change (a.fedge i).key = some y at hy
    change (a.fedge (j - 1)).key = some x' at hx'
    change c.key = some y' at hy'
    rw [Flt.key_fin f1, g1] at hy
    rw [Flt.key_fin f2, g2] at hx'
    rw [hx] at hy'
    cases hy'; cases hy; cases hx'
    have hlt2 := lt_of_le_of_lt hle hlt
    have hlt3 : ((z : ℚ) + (j - 1 : ℕ)) * pow2 e < (z + i) * pow2 e := WithTop.coe_lt_coe.1 (WithBot.coe_lt_coe.1 hlt2)
    have hlt4 := lt_of_mul_lt_mul_right hlt3 hpe.le
    have : ((i : ℕ) : ℚ) ≤ ((j - 1 : ℕ) : ℚ) := by exact_mod_cast (by omega : i ≤ j - 1)
    linarith
  have hex : ∀ c : Flt F, c ≠ .nan ∧ (0 ≤ z ∨ F.rs (c.val - low.val) = c.val - low.val) → ∃ i b, i < a.num + 2 ∧ a.index c = .ok (some i) ∧ a.bin i = .ok (some b) ∧ b.Covers c := by
    rintro c ⟨hc, hx⟩
    obtain ⟨i, b, h1, h2, h3⟩ := C06_exact_partial hnew hl hl0 hh hh0 hq hz hz' hn hp hmax c hc hx
    refine ⟨i, b, ?_, h1, h2, h3⟩
    by_contra hlt
    rw [hbin, if_neg (by omega), if_neg (by omega), if_pos (by omega)] at h2
    simp at h2
  have hR : high.val - low.val = a.num * pow2 e := by rw [hl0, hh0]; ring
  have hpn : a.num < 2 ^ (F.p - 1) := by
    have hp2 := F.p_ge
    rcases Nat.lt_or_ge a.num 2 with h | h
    · exact lt_of_lt_of_le h (by rw [← pow_one 2]; exact Nat.pow_le_pow_right (by norm_num) (by omega))
    · have h3 : 2 * a.num ≤ a.num * a.num := Nat.mul_le_mul_right _ h
      have h4 : 2 ^ F.p = 2 * 2 ^ (F.p - 1) := by rw [← pow_succ']; congr 1; omega
      omega
  refine ⟨C25_lawful_uniform_float_new hnew (by rintro rfl; exact hl) (by rintro rfl; exact hh) hn hpn (fun _ _ => ?_), ?_, ?_⟩
  · rw [hR, abs_of_nonneg (mul_nonneg (by positivity) hpe.le)]
    exact mul_le_mul_of_nonneg_left (pow2_le.mpr he) (by positivity)
  · intro c hc
    obtain ⟨i, b, -, h, -⟩ := hex c hc
    exact ⟨_, h⟩
  · intro c hc i b hi hb
    obtain ⟨j, b', hj, h1, h2, h3⟩ := hex c hc
    constructor
    · intro h
      have h' : a.index c = .ok (some i) := h
      rw [h1] at h'
      have : j = i := by simpa using h'
      subst this
      have hb' : a.bin j = .ok (some b) := hb
      rw [h2] at hb'
      cases hb'; exact h3
    · intro h
      rcases lt_trichotomy i j with hij | rfl | hij
      · exact (uniq i j b b' c hij hj hb h2 h h3).elim
      · exact h1
      · exact (uniq j i b' b c hij hi h2 hb h3 h).elim
end

/-! ## Histograms -/

/-- `2^p + 1` lies half-way between two floats and is rounded to the even one, `2^p` -/
theorem FFmt.rs_two_pow_add_one (F : FFmt) : F.rs (((2 ^ F.p : Nat) : ℚ) + 1) = ((2 ^ F.p : Nat) : ℚ) := by
  have hp := F.p_ge
  have hpos : (0 : ℚ) < ((2 ^ F.p : Nat) : ℚ) + 1 := by positivity
  rw [F.rs_nonneg hpos.le]
  have hcast : ((2 ^ F.p : Nat) : ℚ) = pow2 (F.p : Int) := (pow2_nat _).symm
  have hlog : ilog2 (((2 ^ F.p : Nat) : ℚ) + 1) = F.p := by
    obtain ⟨l1, l2⟩ := ilog2_spec hpos
    have u1 : ((2 ^ F.p : Nat) : ℚ) + 1 < pow2 ((F.p : Int) + 1) := by
      have : pow2 ((F.p : Int) + 1) = 2 * pow2 (F.p : Int) := by rw [pow2_add, show pow2 1 = 2 from by rw [pow2_eq]; norm_num]; ring
      rw [this, ← hcast]
      have : (1 : ℚ) < ((2 ^ F.p : Nat) : ℚ) := by exact_mod_cast Nat.one_lt_two_pow (by omega)
      linarith
    have u2 : pow2 (F.p : Int) ≤ ((2 ^ F.p : Nat) : ℚ) + 1 := by rw [hcast]; linarith
    have a1 := pow2_lt.mp (lt_of_le_of_lt l1 u1)
    have a2 := pow2_lt.mp (lt_of_le_of_lt u2 l2)
    omega
  have hq : F.qexp (((2 ^ F.p : Nat) : ℚ) + 1) = 1 := by
    unfold FFmt.qexp
    rw [hlog, max_eq_left (by have := F.emin_le; omega)]
    ring
  unfold FFmt.rnd
  rw [hq, show pow2 1 = 2 from by rw [pow2_eq]; norm_num]
  obtain ⟨j, hj⟩ : ∃ j, F.p = j + 2 := ⟨F.p - 2, by omega⟩
  have hhalf : (((2 ^ F.p : Nat) : ℚ) + 1) / 2 = ((2 * 2 ^ j : ℕ) : ℤ) + 1 / 2 := by
    rw [hj]; push_cast; ring
  have hfl : ⌊(((2 * 2 ^ j : ℕ) : ℤ) : ℚ) + 1 / 2⌋ = ((2 * 2 ^ j : ℕ) : ℤ) := by
    rw [Int.floor_eq_iff]; constructor <;> linarith
  have hr : rne ((((2 ^ F.p : Nat) : ℚ) + 1) / 2) = ((2 * 2 ^ j : ℕ) : ℤ) := by
    unfold rne
    rw [hhalf, hfl]
    simp only [add_sub_cancel_left]
    rw [if_neg (lt_irrefl _), if_neg (lt_irrefl _), if_pos (by push_cast; omega)]
  rw [hr, hj]; push_cast; ring

section
variable [cfg : Cfg] {A V : Type} [Axis A] {axes : A} {n : Nat} {covers : Axis.Interval A → Axis.Coordinate A → Prop} {dom : Axis.Coordinate A → Prop}

/-- the calls counted in a bin are those whose coordinate its interval contains -/
theorem callsIn_eq_covers (hf : FaithfulAxis axes n covers dom) {calls : List (Call V (Axis.Coordinate A))} (hd : ∀ call ∈ calls, dom call.coord)
    {i : Nat} {b : Axis.Interval A} (hi : i < n) (hb : Axis.bin axes i = .ok (some b)) :
    callsIn axes i calls = calls.filter fun call => covers b call.coord := by
  unfold callsIn
  apply List.filter_congr
  intro call hcall
  have := hf.index_iff call.coord (hd call hcall) i b hi hb
  simp only [this]

/-- **C51 (dense histograms).** After any sequence of filling calls, iterating over the histogram yields every bin of the axis in order, with as value
what one gets by filling a default value with the calls whose coordinate the reported interval contains, in the order they were made. -/
theorem C51_dense [RDefault V] (hf : FaithfulAxis axes n covers dom) {h : VecHistogram A V} (hnew : VecHistogram.new axes = .ok h)
    (calls : List (Call V (Axis.Coordinate A))) (hd : ∀ call ∈ calls, dom call.coord) :
    ∃ items, (h.callAllCaught calls).iter = .ok items ∧ items.length = n ∧
      ∀ i it, items[i]? = some it → it.index = i ∧ Axis.bin axes i = .ok (some it.bin) ∧
        it.value = filledWith (calls.filter fun call => covers it.bin call.coord) RDefault.dflt := by
  obtain ⟨ok, hax, hval⟩ := C28_dense hf.lawful hnew calls
  obtain ⟨items, hit, hlen, hall, -⟩ := C38_iter ok
  refine ⟨items, hit, hlen, ?_⟩
  intro i it hi
  have hin : i < n := by rw [← hlen]; exact (List.getElem?_eq_some_iff.1 hi).1
  obtain ⟨b, v, h1, h2, h3⟩ := hall i hin
  rw [hi] at h1
  cases h1
  rw [hax] at h2
  refine ⟨rfl, h2, ?_⟩
  rw [hval i, if_pos hin, callsIn_eq_covers hf hd hin h2] at h3
  exact (Option.some.inj h3).symm

/-- **C51 (sparse histograms).** The same for sparse histograms, in whatever order the bins are iterated over: each bin appears at most once, and exactly the
bins appear whose interval contains the coordinate of some call. -/
theorem C51_sparse [RDefault V] (hf : FaithfulAxis axes n covers dom)
    (calls : List (Call V (Axis.Coordinate A))) (hd : ∀ call ∈ calls, dom call.coord)
    (o : ((HashHistogram.new axes : HashHistogram A V).callAllCaught calls).values.Order) :
    ∃ items, ((HashHistogram.new axes : HashHistogram A V).callAllCaught calls).iter o = .ok items ∧ (items.map (·.index)).Nodup ∧
      (∀ it ∈ items, it.index < n ∧ Axis.bin axes it.index = .ok (some it.bin) ∧ (∃ call ∈ calls, covers it.bin call.coord) ∧
        it.value = filledWith (calls.filter fun call => covers it.bin call.coord) RDefault.dflt) ∧
      ∀ i b, i < n → Axis.bin axes i = .ok (some b) → (∃ call ∈ calls, covers b call.coord) → ∃ it ∈ items, it.index = i ∧ it.bin = b := by
  have hax : ((HashHistogram.new axes : HashHistogram A V).callAllCaught calls).axes = axes := by
    rw [HashHistogram.callAllCaught_axes]; rfl
  obtain ⟨ok, -, hkeys, -⟩ := C32_keys (V := V) hf.lawful calls
  obtain ⟨items, hit, hnd, hall, hex, -⟩ := C32_iter ok o
  have hval := C28_sparse (V := V) axes calls
  have hne : ∀ i b, i < n → Axis.bin axes i = .ok (some b) → (callsIn axes i calls ≠ [] ↔ ∃ call ∈ calls, covers b call.coord) := by
    intro i b hi hb
    rw [callsIn_eq_covers hf hd hi hb, Ne, List.filter_eq_nil_iff]
    simp
  refine ⟨items, hit, hnd, ?_, ?_⟩
  · intro it hmem
    obtain ⟨h1, h2⟩ := hall it hmem
    rw [hax] at h2
    have hlt : it.index < n := ok.valid _ ((HMap.get_isSome _ _).1 ⟨_, h1⟩)
    rw [hval] at h1
    split at h1
    · exact absurd h1 (by simp)
    next hc =>
    refine ⟨hlt, h2, (hne _ _ hlt h2).1 hc, ?_⟩
    rw [callsIn_eq_covers hf hd hlt h2] at h1
    exact (Option.some.inj h1).symm
  · intro i b hi hb hcov
    have h1 := hval i
    rw [if_neg ((hne i b hi hb).2 hcov)] at h1
    obtain ⟨it, hmem, rfl, -⟩ := hex i _ h1
    have := (hall it hmem).2
    rw [hax, hb] at this
    exact ⟨it, hmem, rfl, by simpa using this.symm⟩

/-- **C51 (lookup).** The value looked up for a coordinate is the default filled with the calls whose coordinate lies in the same interval. -/
theorem C51_value [RDefault V] (hf : FaithfulAxis axes n covers dom) {h : VecHistogram A V} (hnew : VecHistogram.new axes = .ok h)
    (calls : List (Call V (Axis.Coordinate A))) (hd : ∀ call ∈ calls, dom call.coord) (c : Axis.Coordinate A) (hc : dom c) :
    (∀ i b, i < n → Axis.bin axes i = .ok (some b) → covers b c →
      (h.callAllCaught calls).value c = .ok (some (filledWith (calls.filter fun call => covers b call.coord) RDefault.dflt))) ∧
    ((∀ i b, i < n → Axis.bin axes i = .ok (some b) → ¬ covers b c) → (h.callAllCaught calls).value c = .ok none) := by
  obtain ⟨ok, hax, hval⟩ := C28_dense hf.lawful hnew calls
  obtain ⟨h1, h2, -, -⟩ := C26_value ok c
  rw [hax] at h1 h2
  constructor
  · intro i b hi hb hcov
    obtain ⟨v, hv, hvc⟩ := h1 i ((hf.index_iff c hc i b hi hb).2 hcov)
    rw [hval i, if_pos hi, callsIn_eq_covers hf hd hi hb] at hv
    rw [hvc, Option.some.inj hv]
  · intro hno
    apply h2.1
    obtain ⟨o, ho⟩ := hf.total c hc
    cases o with
    | none => exact ho
    | some i =>
      have hi := hf.lawful.index_lt c i ho
      obtain ⟨b, hb⟩ := hf.lawful.bin_some i hi
      exact absurd ((hf.index_iff c hc i b hi hb).1 ho) (hno i b hi hb)

/-- filling calls that never panic on the values that occur -/
theorem callAll_of_no_panic {h : VecHistogram A V} {calls : List (Call V (Axis.Coordinate A))}
    (hno : ∀ pre c post, calls = pre ++ c :: post → ((h.callAllCaught pre).call c).2 = none) :
    h.callAll calls = (h.callAllCaught calls, none) := by
  obtain ⟨h1, h2⟩ := C28_until_panic h calls
  cases hp : (h.callAll calls).2 with
  | none => exact Prod.ext (h1 hp) hp
  | some p =>
    obtain ⟨pre, c, post, he, hc, -⟩ := h2 p hp
    rw [hno pre c post he] at hc
    cases hc

/-- counting with an integer, as long as the count fits -/
theorem filledWith_fill_int {τ : IntTy} {C : Type} (cs : List C) (v : MInt τ) (h : v.val + cs.length ≤ τ.max) :
    (filledWith (cs.map (Call.fill : C → Call (MInt τ) C)) v).val = v.val + cs.length := by
  induction cs generalizing v with
  | nil => simp [filledWith]
  | cons c cs ih =>
    have hone : ∃ w : MInt τ, ((Call.fill c : Call (MInt τ) C).on v) = (w, none) ∧ w.val = v.val + 1 := by
      push_cast [List.length_cons] at h
      have hr := v.min_le
      have hb : τ.min ≤ v.val + 1 ∧ v.val + 1 ≤ τ.max := by omega
      refine ⟨⟨v.val + 1, hb.1, hb.2⟩, ?_, rfl⟩
      show addAssign one v = _
      have hadd : @RNum.add (MInt τ) cfg _ v (@RNum.one (MInt τ) cfg _) = .ok ⟨v.val + 1, hb.1, hb.2⟩ := by
        rw [MInt.add_def, MInt.one_val, MInt.arith_ok hb.1 hb.2]
      simp only [addAssign, Upd.store, hadd]
    obtain ⟨w, hw, hwv⟩ := hone
    have : filledWith ((c :: cs).map (Call.fill : C → Call (MInt τ) C)) v = filledWith (cs.map Call.fill) w := by
      simp [filledWith, hw]
    rw [this, ih w (by push_cast [List.length_cons] at h; omega), hwv]
    push_cast [List.length_cons]; ring

/-- adding one to a float counter: exact below `2^p`, without effect at `2^p` -/
theorem Flt.count_step {F : FFmt} {v : Flt F} (hv : v.isFin) {k : Nat} (hk : v.val = k) (hle : k ≤ 2 ^ F.p) :
    (Flt.add v (Flt.ofRat 1)).isFin ∧ (Flt.add v (Flt.ofRat 1)).val = ((min (k + 1) (2 ^ F.p) : Nat) : ℚ) := by
  have hp := F.p_ge
  obtain ⟨o1, o2⟩ := Flt.ofNat_spec (F := F) (n := 1) (Nat.one_le_two_pow)
  rw [Nat.cast_one] at o1 o2
  have hr := Flt.add_rounds hv o1
  rw [hk, o2] at hr
  rcases Nat.lt_or_ge k (2 ^ F.p) with h | h
  · have hrep := F.rep_nat (n := k + 1) h
    have hrs : F.rs ((k : ℚ) + 1) = ((k + 1 : Nat) : ℚ) := by
      have := F.rs_of_rep (x := ((k + 1 : Nat) : ℚ)) (by rw [Nat.abs_cast]; exact hrep.repU)
      push_cast at this ⊢; exact this
    obtain ⟨h1, h2⟩ := hr.fin_of (by
      have := hrep.le_maxFin
      push_cast at this
      rw [abs_of_nonneg (by positivity)]; exact this)
    refine ⟨h1, ?_⟩
    rw [h2, hrs, min_eq_left (by omega)]
  · have hk2 : k = 2 ^ F.p := by omega
    subst hk2
    have hrs : F.rs (((2 ^ F.p : Nat) : ℚ) + 1) = ((2 ^ F.p : Nat) : ℚ) := F.rs_two_pow_add_one
    rw [min_eq_right (by omega)]
    generalize Flt.add v (Flt.ofRat 1) = w at hr
    cases hr with
    | fin h1 h2 => exact ⟨h1, h2.trans hrs⟩
    | inf h => rw [hrs, Nat.abs_cast] at h; exact absurd (F.rep_nat le_rfl).le_maxFin (not_le.2 h)

/-- counting with a float -/
theorem filledWith_fill_float {F : FFmt} {C : Type} (cs : List C) (v : Flt F) (hv : v.isFin) {k : Nat} (hk : v.val = k) (hle : k ≤ 2 ^ F.p) :
    (filledWith (cs.map (Call.fill : C → Call (Flt F) C)) v).isFin ∧
    (filledWith (cs.map (Call.fill : C → Call (Flt F) C)) v).val = ((min (k + cs.length) (2 ^ F.p) : Nat) : ℚ) := by
  induction cs generalizing v k with
  | nil => simp only [filledWith, List.map_nil, List.foldl_nil, List.length_nil, Nat.add_zero]; exact ⟨hv, by rw [hk, min_eq_left hle]⟩
  | cons c cs ih =>
    obtain ⟨w1, w2⟩ := Flt.count_step hv hk hle
    obtain ⟨r1, r2⟩ := ih _ w1 w2 (min_le_right _ _)
    have e : filledWith ((c :: cs).map (Call.fill : C → Call (Flt F) C)) v = filledWith (cs.map Call.fill) (Flt.add v (Flt.ofRat 1)) := rfl
    rw [e]
    refine ⟨r1, r2.trans ?_⟩
    congr 1
    simp only [List.length_cons]
    omega

theorem filter_map_fill [Fill V] (b : Axis.Interval A) (cs : List (Axis.Coordinate A)) :
    ((cs.map Call.fill : List (Call V (Axis.Coordinate A))).filter fun call => covers b call.coord) =
      (cs.filter fun c => covers b c).map Call.fill := by
  rw [List.filter_map]; rfl

/-- **C52 (integers).** A histogram of integer counters filled with unit fills holds in each bin the number of the coordinates the reported interval
contains; no fill panics, as long as the number of fills fits the counter type. -/
theorem C52_count_int {τ : IntTy} (hf : FaithfulAxis axes n covers dom) {h : VecHistogram A (MInt τ)} (hnew : VecHistogram.new axes = .ok h)
    (cs : List (Axis.Coordinate A)) (hd : ∀ c ∈ cs, dom c) (hfit : (cs.length : ℤ) ≤ τ.max) :
    ∃ h' items, h.callAll (cs.map .fill) = (h', none) ∧ h'.iter = .ok items ∧ items.length = n ∧
      ∀ i it, items[i]? = some it → it.index = i ∧ Axis.bin axes i = .ok (some it.bin) ∧
        it.value.val = ((cs.countP fun c => covers it.bin c : ℕ) : ℤ) := by
  have hd' : ∀ call ∈ (cs.map Call.fill : List (Call (MInt τ) (Axis.Coordinate A))), dom call.coord := by
    intro call hcall
    obtain ⟨c, hc, rfl⟩ := List.mem_map.1 hcall
    exact hd c hc
  have hcount : ∀ (cs' : List (Axis.Coordinate A)) (b : Axis.Interval A), (cs'.length : ℤ) ≤ τ.max →
      (filledWith (((cs'.map Call.fill : List (Call (MInt τ) (Axis.Coordinate A))).filter fun call => covers b call.coord)) RDefault.dflt).val =
        ((cs'.countP fun c => covers b c : ℕ) : ℤ) := by
    intro cs' b hl
    have hle := List.length_filter_le (fun c => decide (covers b c)) cs'
    have h0 : (RDefault.dflt : MInt τ).val = 0 := rfl
    rw [filter_map_fill, filledWith_fill_int _ _ (by rw [h0]; omega), h0, zero_add, List.countP_eq_length_filter]
  obtain ⟨items, hit, hlen, hall⟩ := C51_dense hf hnew _ hd'
  refine ⟨_, items, callAll_of_no_panic ?_, hit, hlen, ?_⟩
  · intro pre c post he
    obtain ⟨cs1, cs2, rfl, rfl, h2⟩ := List.map_eq_append_iff.1 he
    obtain ⟨c0, cs3, rfl, rfl, rfl⟩ := List.map_eq_cons_iff.1 h2
    obtain ⟨ok, hax, hval⟩ := C28_dense hf.lawful hnew (cs1.map .fill)
    obtain ⟨-, -, g1, g2, g3⟩ := C27_dense ok (Call.fill c0)
    rw [hax] at g1 g2 g3
    obtain ⟨o, ho⟩ := hf.total c0 (hd c0 (by simp))
    cases o with
    | none => rw [g2 ho]
    | some i =>
      obtain ⟨⟨v, hv, -, hp⟩, -⟩ := g1 i ho
      rw [hp]
      have hi := hf.lawful.index_lt c0 i ho
      obtain ⟨b, hb⟩ := hf.lawful.bin_some i hi
      simp only [List.length_append, List.length_cons] at hfit
      push_cast at hfit
      rw [hval i, if_pos hi, callsIn_eq_covers hf (by
        intro call hcall
        obtain ⟨c, hc, rfl⟩ := List.mem_map.1 hcall
        exact hd c (by simp [hc])) hi hb] at hv
      have hvv := hcount cs1 b (by omega)
      rw [Option.some.inj hv] at hvv
      have hcl := List.countP_le_length (p := fun c => decide (covers b c)) (l := cs1)
      have hr := v.min_le
      have hz := τ.min_le_zero
      have hb : τ.min ≤ v.val + 1 ∧ v.val + 1 ≤ τ.max := by omega
      show (addAssign one v).2 = none
      have hadd : @RNum.add (MInt τ) cfg _ v (@RNum.one (MInt τ) cfg _) = .ok ⟨v.val + 1, hb.1, hb.2⟩ := by
        rw [MInt.add_def, MInt.one_val, MInt.arith_ok hb.1 hb.2]
      simp only [addAssign, Upd.store, hadd]
  · intro i it hi
    obtain ⟨h1, h2, h3⟩ := hall i it hi
    exact ⟨h1, h2, by rw [h3, hcount cs _ hfit]⟩

/-- **C52 (floats).** A histogram of float counters filled with unit fills never panics and holds in each bin the number of the coordinates the reported
interval contains, up to `2^p` (`2^53` for `f64`); from then on the count stays at `2^p`. -/
theorem C52_count_float {F : FFmt} (hf : FaithfulAxis axes n covers dom) {h : VecHistogram A (Flt F)} (hnew : VecHistogram.new axes = .ok h)
    (cs : List (Axis.Coordinate A)) (hd : ∀ c ∈ cs, dom c) :
    ∃ h' items, h.callAll (cs.map .fill) = (h', none) ∧ h'.iter = .ok items ∧ items.length = n ∧
      ∀ i it, items[i]? = some it → it.index = i ∧ Axis.bin axes i = .ok (some it.bin) ∧
        it.value.isFin ∧ it.value.val = ((min (cs.countP fun c => covers it.bin c) (2 ^ F.p) : Nat) : ℚ) := by
  have hd' : ∀ call ∈ (cs.map Call.fill : List (Call (Flt F) (Axis.Coordinate A))), dom call.coord := by
    intro call hcall
    obtain ⟨c, hc, rfl⟩ := List.mem_map.1 hcall
    exact hd c hc
  obtain ⟨items, hit, hlen, hall⟩ := C51_dense hf hnew _ hd'
  refine ⟨_, items, callAll_of_no_panic ?_, hit, hlen, ?_⟩
  · intro pre c post he
    obtain ⟨cs1, cs2, rfl, rfl, h2⟩ := List.map_eq_append_iff.1 he
    obtain ⟨c0, cs3, rfl, rfl, rfl⟩ := List.map_eq_cons_iff.1 h2
    obtain ⟨ok, hax, hval⟩ := C28_dense hf.lawful hnew (cs1.map .fill)
    obtain ⟨-, -, g1, g2, g3⟩ := C27_dense ok (Call.fill c0)
    rw [hax] at g1 g2 g3
    obtain ⟨o, ho⟩ := hf.total c0 (hd c0 (by simp))
    cases o with
    | none => rw [g2 ho]
    | some i =>
      obtain ⟨⟨v, hv, -, hp⟩, -⟩ := g1 i ho
      rw [hp]; rfl
  · intro i it hi
    obtain ⟨h1, h2, h3⟩ := hall i it hi
    rw [filter_map_fill] at h3
    obtain ⟨f1, f2⟩ := filledWith_fill_float (F := F) (cs.filter fun c => covers it.bin c) RDefault.dflt (k := 0) (by trivial) (by rfl) (Nat.zero_le _)
    rw [zero_add, ← List.countP_eq_length_filter] at f2
    rw [h3]
    exact ⟨h1, h2, f1, f2⟩
end

/-! ## Non-vacuity -/

section
attribute [local instance] dbg64

/-- `Uniform::with_step_size(10, 0, 5)` over `i32` -/
def exUni : Uniform (MInt .i32) := ⟨10, .lit 0, .lit 50, .lit 5⟩

theorem exUni_faithful : FaithfulAxis exUni 12 (BinInterval.Covers (T := MInt .i32)) (fun _ => True) :=
  C51_uniform_int (num := 10) (low := .lit 0) (step := .lit 5) rfl (fun h => absurd h (by decide)) (by decide) (by decide)

/-- the product with a category axis -/
def exPair : AxesTuple ⟨Uniform (MInt .i32), inferInstance⟩ ⟨CategoryNoFlow String, inferInstance⟩ [] :=
  ⟨(exUni, exAxis, ()), [12, 24]⟩

example : FaithfulAxis exPair 24
    (CoversAll (ts := [⟨Uniform (MInt .i32), inferInstance⟩, ⟨CategoryNoFlow String, inferInstance⟩])
      (BinInterval.Covers (T := MInt .i32), SingleValueBinInterval.Covers ["a", "b"], ()))
    (InDom (ts := [⟨Uniform (MInt .i32), inferInstance⟩, ⟨CategoryNoFlow String, inferInstance⟩]) (fun _ => True, fun _ => True, ())) :=
  C51_tuple (t₀ := ⟨Uniform (MInt .i32), inferInstance⟩) (t₁ := ⟨CategoryNoFlow String, inferInstance⟩) (ts := []) (item := (exUni, exAxis, ())) (ns := [12, 2])
    (cov := (BinInterval.Covers (T := MInt .i32), SingleValueBinInterval.Covers ["a", "b"], ())) (dom := (fun _ => True, fun _ => True, ()))
    ⟨12, [2], rfl, exUni_faithful, 2, [], rfl, C51_category_noflow ["a", "b"] (by decide) (by decide), rfl⟩
    (by decide) (by decide) (by rfl)

/-- `UniformCyclic::with_step_size(10, 0, 5)` over `i32`: the coordinate 62 is covered by bin 2, `[10, 15)` -/
example : FaithfulAxis (UniformCyclic.mk (UniformNoFlow.mk exUni)) 10 (BinInterval.CoversTurns (τ := .i32) 50)
    (fun c : MInt .i32 => IntTy.min .i32 ≤ c.val - 0 ∧ c.val - 0 ≤ IntTy.max .i32) ∧
    BinInterval.CoversTurns 50 (.Bin (.lit 10) (.lit 15) : BinInterval (MInt .i32)) (.lit 62) :=
  ⟨C51_uniform_cyclic_int (num := 10) (low := .lit 0) (step := .lit 5) rfl (fun h => absurd h (by decide)) (by decide) (by decide),
    ⟨-1, by decide, by decide⟩⟩

/-- `Uniform::new(10, 0.0, 10.0)` over `f64` -/
example : ∃ a, Uniform.new 10 (f64 0) (f64 10) = .ok (.ok a) ∧
    FaithfulAxis a 12 (BinInterval.Covers (T := F64)) (fun c => c ≠ .nan ∧ (0 ≤ (0 : ℤ) ∨ FFmt.f64.rs (c.val - (f64 0).val) = c.val - (f64 0).val)) := by
  refine ⟨⟨10, f64 0, f64 10, f64 1⟩, by decide +kernel, ?_⟩
  exact C51_uniform_float (num := 10) (low := f64 0) (high := f64 10) (e := 0) (z := 0) (by decide +kernel) (Flt.ofNat_spec (n := 0) (by decide)).1 (by decide +kernel) (Flt.ofNat_spec (n := 10) (by decide)).1
    (by decide +kernel) (by decide) (by decide) (by decide) (by decide) (by decide) (by decide +kernel)

/-- counting: three coordinates, two of them in `[5, 10)` -/
example : ∃ (h h' : VecHistogram (Uniform (MInt .i32)) F64) (items : List (Item (BinInterval (MInt .i32)) F64)),
    VecHistogram.new exUni = .ok h ∧
    h.callAll ([.lit 7, .lit 3, .lit 5].map .fill) = (h', none) ∧ h'.iter = .ok items ∧
    items[2]? = some ⟨2, .Bin (.lit 5) (.lit 10), f64 2⟩ := by
  refine ⟨_, _, _, rfl, rfl, rfl, ?_⟩
  decide +kernel
end

end NdHist
