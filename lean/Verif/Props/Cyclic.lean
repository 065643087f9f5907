import Verif.SpecCyclic
import Verif.Props.Rescale
import Verif.Props.RebinCyclic
/-!
# C100: cyclic axes have no beginning
-/
namespace NdHist

section
variable {n : Nat}

theorem roundBy_lt (hn : 0 < n) (d : ℤ) (i : Nat) : roundBy n d i < n := by
  unfold roundBy
  have h1 := Int.emod_nonneg ((i : ℤ) + d) (b := n) (by omega)
  have h2 := Int.emod_lt_of_pos ((i : ℤ) + d) (b := n) (by omega)
  omega

theorem roundBy_eq (hn : 0 < n) (d : ℤ) (i : Nat) : ((roundBy n d i : ℕ) : ℤ) = i + d - n * (((i : ℤ) + d) / n) := by
  unfold roundBy
  have h1 := Int.emod_nonneg ((i : ℤ) + d) (b := n) (by omega)
  have h2 := Int.mul_ediv_add_emod ((i : ℤ) + d) n
  omega

theorem roundBy_inj (hn : 0 < n) (d : ℤ) (i j : Nat) (hi : i < n) (hj : j < n) (h : roundBy n d i = roundBy n d j) : i = j := by
  have e1 := roundBy_eq hn d i
  have e2 := roundBy_eq hn d j
  rw [h, e2] at e1
  have e3 : (i : ℤ) - j = n * (((i : ℤ) + d) / n - ((j : ℤ) + d) / n) := by linarith
  have hd : (n : ℤ) ∣ (i : ℤ) - j := ⟨_, e3⟩
  have := Int.eq_zero_of_abs_lt_dvd hd (by rw [abs_lt]; omega)
  omega

theorem roundBy_back (hn : 0 < n) (d : ℤ) (j : Nat) (hj : j < n) : roundBy n d (roundBy n (-d) j) = j := by
  have e1 := roundBy_eq hn (-d) j
  have e2 := roundBy_eq hn d (roundBy n (-d) j)
  rw [e1] at e2
  have l := roundBy_lt hn d (roundBy n (-d) j)
  have e3 : ((roundBy n d (roundBy n (-d) j) : ℕ) : ℤ) - j = n * (-(((j : ℤ) + -d) / n) - ((j : ℤ) + -d - n * (((j : ℤ) + -d) / n) + d) / n) := by rw [e2]; ring
  have hd : (n : ℤ) ∣ ((roundBy n d (roundBy n (-d) j) : ℕ) : ℤ) - j := ⟨_, e3⟩
  have := Int.eq_zero_of_abs_lt_dvd hd (by rw [abs_lt]; omega)
  omega

theorem roundBy_surj (hn : 0 < n) (d : ℤ) (j : Nat) (hj : j < n) : ∃ i, i < n ∧ roundBy n d i = j :=
  ⟨roundBy n (-d) j, roundBy_lt hn _ _, roundBy_back hn d j hj⟩

/-- edges that repeat after `n` bins -/
theorem edges_turn {E : ℤ → ℚ} {P : ℚ} (hper : ∀ i, E (i + n) = E i + P) (i k : ℤ) : E (i + n * k) = E i + k * P := by
  induction k with
  | zero => simp
  | succ k ih => rw [show i + (n : ℤ) * ((k : ℤ) + 1) = (i + n * k) + n by ring, hper, ih]; push_cast; ring
  | pred k ih =>
    have := hper (i + n * (-(k : ℤ) - 1))
    rw [show i + (n : ℤ) * (-(k : ℤ) - 1) + n = i + n * (-(k : ℤ)) by ring, ih] at this
    push_cast at this ⊢; linarith

/-- bins of cyclic axes whose edges are the same up to a shift `s` and a renumbering by `d` -/
theorem mem_turnBins_round {E E' : ℤ → ℚ} {P s : ℚ} {d : ℤ} (hn : 0 < n) (hper : ∀ i, E (i + n) = E i + P) (hE : ∀ i, E' i = E (i - d) + s) (i : Nat) (x : ℚ) (t₀ : ℤ) :
    x + s + t₀ * P ∈ turnBins E' P (roundBy n d i) ↔ x ∈ turnBins E P i := by
  have e := roundBy_eq hn d i
  set q := ((i : ℤ) + d) / n with hq
  have e0 : E' ((roundBy n d i : ℕ) : ℤ) = E i - q * P + s := by
    rw [hE, e, show (i : ℤ) + d - n * q - d = i + n * (-q) by ring, edges_turn hper]; push_cast; ring
  have e1 : E' (((roundBy n d i : ℕ) : ℤ) + 1) = E (i + 1) - q * P + s := by
    rw [hE, e, show (i : ℤ) + d - n * q + 1 - d = i + 1 + n * (-q) by ring, edges_turn hper]; push_cast; ring
  unfold turnBins
  simp only [Set.mem_ofPred_eq]
  rw [e0, e1]
  constructor
  · rintro ⟨t, h1, h2⟩
    exact ⟨t + q + t₀, by push_cast; linarith, by push_cast; linarith⟩
  · rintro ⟨t, h1, h2⟩
    exact ⟨t - q - t₀, by push_cast; linarith, by push_cast; linarith⟩
end

section
variable [cfg : Cfg] {A A' : Type} [Axis A] [Axis A'] {a : A} {a' : A'} {n : Nat} {covers : Axis.Interval A → Axis.Coordinate A → Prop} {covers' : Axis.Interval A' → Axis.Coordinate A' → Prop}
  {dom₁ : Axis.Coordinate A → Prop} {dom₂ : Axis.Coordinate A' → Prop} {is₁ : Axis.Coordinate A → ℚ → Prop} {is₂ : Axis.Coordinate A' → ℚ → Prop} {same : Axis.Coordinate A → Axis.Coordinate A'}
  {dom : Axis.Coordinate A → Prop} {E E' : ℤ → ℚ} {P s : ℚ} {d : ℤ}

/-- **C100 (renumbering).** Two cyclic axes with `n` bins each whose edges agree, up to a shift by `s` and the numbering (edge `i` of the second is edge `i - d` of the first plus `s`), and coordinates that are moved by `s` and
whole turns, as many as one likes for each: what the first axis counts in bin `i` the second counts in bin `i + d`, round the circle. -/
theorem C100_round (hn : 0 < n) (hper : ∀ i, E (i + n) = E i + P) (hE : ∀ i, E' i = E (i - d) + s)
    (ha : BinsAre a n covers dom₁ is₁ (turnBins E P)) (ha' : BinsAre a' n covers' dom₂ is₂ (turnBins E' P))
    (hsame : ∀ c, dom c → dom₁ c ∧ dom₂ (same c) ∧ ∃ (x : ℚ) (t : ℤ), is₁ c x ∧ is₂ (same c) (x + s + t * P)) :
    Coarser a n covers a' n covers' same dom (roundBy n d) ∧ ∀ i j, i < n → j < n → roundBy n d i = roundBy n d j → i = j := by
  refine ⟨⟨ha.faithful.mono fun c hc => (hsame c hc).1, ha'.faithful.mono (by rintro _ ⟨c, hc, rfl⟩; exact (hsame c hc).2.1), fun i _ => roundBy_lt hn d i, ?_⟩, roundBy_inj hn d⟩
  intro j b' hj hb' c hc
  obtain ⟨h1, h2, x, t, hx, hy⟩ := hsame c hc
  obtain ⟨i, hi, rfl⟩ := roundBy_surj hn d j hj
  obtain ⟨b, hb⟩ := ha.faithful.lawful.bin_some i hi
  rw [ha'.contains _ b' hj hb' _ _ h2 hy, mem_turnBins_round hn hper hE, ← ha.contains i b hi hb c x h1 hx]
  constructor
  · intro h
    exact ⟨i, b, hi, rfl, hb, h⟩
  · rintro ⟨i', b₂, hi', he, hb₂, h⟩
    obtain rfl := roundBy_inj hn d i' i hi' hi he
    have : b₂ = b := by rw [hb] at hb₂; simpa using hb₂.symm
    rwa [this] at h

/-- **C100 (reduced coordinates).** A cyclic axis counts a coordinate where an axis without flow bins with the same edges counts its representative between the first and the last edge. -/
theorem C100_reduce (hmono : ∀ i, E i < E (i + 1)) (hper : ∀ i, E (i + n) = E i + P)
    (ha : BinsAre a n covers dom₁ is₁ (turnBins E P)) (ha' : BinsAre a' n covers' dom₂ is₂ (edgeBins E))
    (hsame : ∀ c, dom c → dom₁ c ∧ dom₂ (same c) ∧ ∃ (x : ℚ) (t : ℤ), is₁ c x ∧ is₂ (same c) (x + t * P) ∧ E 0 ≤ x + t * P ∧ x + t * P < E n) :
    Coarser a n covers a' n covers' same dom id := by
  refine Coarser.of_bins (ha.faithful.mono fun c hc => (hsame c hc).1) (ha'.faithful.mono (by rintro _ ⟨c, hc, rfl⟩; exact (hsame c hc).2.1)) ?_
  intro i b b' hi hb hb' c hc
  obtain ⟨h1, h2, x, t, hx, hy, hlo, hhi⟩ := hsame c hc
  rw [ha'.contains i b' hi hb' _ _ h2 hy, ha.contains i b hi hb c x h1 hx]
  have mono : StrictMono E := strictMono_int_of_lt_succ hmono
  have hP : 0 < P := by
    have h0 := hper 0
    have : E 0 < E n := lt_of_le_of_lt hlo hhi
    rw [zero_add] at h0
    linarith
  constructor
  · rintro ⟨h3, h4⟩
    exact ⟨t, h3, h4⟩
  · rintro ⟨t', h3, h4⟩
    have hE0 : E n = E 0 + P := by have := hper 0; rwa [zero_add] at this
    have l0 : E 0 ≤ E i := mono.monotone (by omega)
    have l1 : E (i + 1) ≤ E n := mono.monotone (by omega)
    have : t' = t := by
      have k1 : ((t' : ℚ) - t) * P < 1 * P := by linarith
      have k2 : ((t : ℚ) - t') * P < 1 * P := by linarith
      have k3 := lt_of_mul_lt_mul_right k1 hP.le
      have k4 := lt_of_mul_lt_mul_right k2 hP.le
      have k5 : t' - t < 1 := by exact_mod_cast k3
      have k6 : t - t' < 1 := by exact_mod_cast k4
      omega
    rw [this] at h3 h4
    exact ⟨h3, h4⟩
end

/-! ## The axes of the crate -/

theorem turnBins_even (num : Nat) (low step : ℚ) : evenBinsTurns num low step = turnBins (fun i => low + i * step) (num * step) := by
  funext i
  unfold evenBinsTurns turnBins
  ext x
  simp only [Set.mem_ofPred_eq]
  push_cast
  rfl

theorem edgeBins_even (low step : ℚ) : evenBinsNoFlow low step = edgeBins (fun i => low + i * step) := by
  funext i
  unfold evenBinsNoFlow edgeBins
  ext x
  simp only [Set.mem_ofPred_eq]
  push_cast
  rfl

/-- **C100 (uniform cyclic axes).** Axes with `num` bins of the same width each, the second starting `d` bins before the first moved by `s`: the same up to numbering. With `d = 0` both are moved; with `s = d * step` the second
axis is the first one but the coordinates are moved by `d` bins. -/
theorem C100_uniform [cfg : Cfg] {A A' : Type} [Axis A] [Axis A'] {a : A} {a' : A'} {num : Nat} {covers : Axis.Interval A → Axis.Coordinate A → Prop} {covers' : Axis.Interval A' → Axis.Coordinate A' → Prop}
    {dom₁ : Axis.Coordinate A → Prop} {dom₂ : Axis.Coordinate A' → Prop} {is₁ : Axis.Coordinate A → ℚ → Prop} {is₂ : Axis.Coordinate A' → ℚ → Prop} {same : Axis.Coordinate A → Axis.Coordinate A'}
    {dom : Axis.Coordinate A → Prop} {low low' step s : ℚ} {d : ℤ} (hnum : 0 < num) (hlow : low' = low - d * step + s)
    (ha : BinsAre a num covers dom₁ is₁ (evenBinsTurns num low step)) (ha' : BinsAre a' num covers' dom₂ is₂ (evenBinsTurns num low' step))
    (hsame : ∀ c, dom c → dom₁ c ∧ dom₂ (same c) ∧ ∃ (x : ℚ) (t : ℤ), is₁ c x ∧ is₂ (same c) (x + s + t * (num * step))) :
    Coarser a num covers a' num covers' same dom (roundBy num d) ∧ ∀ i j, i < num → j < num → roundBy num d i = roundBy num d j → i = j := by
  rw [turnBins_even] at ha ha'
  exact C100_round hnum (fun i => by push_cast; ring) (fun i => by rw [hlow]; push_cast; ring) ha ha' hsame

section
variable [cfg : Cfg] [StdLib] {τ : IntTy}

/-- **C100 (variable-width cyclic axes of integers).** The bins of such an axis, built from the edges `E 0, ..., E n` in any order. -/
theorem C100_variable_int {n : Nat} {E : ℤ → ℤ} {edges : List (MInt τ)} {a : VariableCyclic (MInt τ)} (hnew : VariableCyclic.new edges = .ok (.ok a)) (hmem : n + 2 < usizeSize)
    (hmono : ∀ i, E i < E (i + 1)) (hedges : (edges.map MInt.val).Perm ((List.range (n + 1)).map fun k : Nat => E k)) (hR : E n - E 0 ≤ τ.max) :
    BinsAre a n (BinInterval.CoversTurns (τ := τ) (E n - E 0)) (fun c : MInt τ => τ.min ≤ c.val - E 0 ∧ c.val - E 0 ≤ τ.max) MInt.Is (turnBins (fun i => (E i : ℚ)) ((E n - E 0 : ℤ) : ℚ)) := by
  have hf : ∀ k : Nat, E k < E ((k + 1 : Nat) : ℤ) := fun k => by push_cast; exact hmono k
  have hnf := VariableCyclic.new_ok hnew
  have hv := VariableNoFlow.new_ok hnf
  obtain ⟨hp, hsort⟩ := (C10_variable_new_sorts edges).2 _ hv
  obtain ⟨hlen, hval⟩ := sorted_edges (val := MInt.val) (f := fun k : Nat => E k) hp (hsort.imp fun h => by rw [MInt.le_iff] at h; simpa using h) hf hedges
  have hd : edges.Nodup := by
    rw [List.nodup_iff_pairwise_ne]
    exact (distinct_edges hf hedges).imp fun h e => h (by rw [e])
  obtain ⟨-, ⟨e0, he0, hlow, -⟩, ⟨el, hel, hhigh, -⟩, -, -⟩ := C13_variable_bins hv (by omega)
  obtain ⟨lo, hi, hlo, hhi, -, hF⟩ := C51_variable_cyclic_int hnew (by omega) hd
  have q1 : lo.val = E 0 := by
    have : a.axis.axis.low = .ok lo := hlo
    rw [hlow] at this
    rw [← Except.ok.inj this, hval 0 e0 he0]; rfl
  have q2 : hi.val = E n := by
    have : a.axis.axis.high = .ok hi := hhi
    rw [hhigh] at this
    rw [← Except.ok.inj this, hval _ el hel, hlen]; rfl
  rw [q1, q2] at hF
  have hF := hF hR
  rw [hlen] at hF
  refine ⟨hF, ?_⟩
  intro i b hi hb (c : MInt τ) x _ hx
  obtain rfl : (c.val : ℚ) = x := hx
  obtain ⟨-, hbins, -⟩ := C14_variable_noflow_bins hnf (by omega)
  obtain ⟨s, e, hs, he, hbi⟩ := hbins i (by omega)
  have hb : a.axis.bin i = .ok (some b) := hb
  rw [hbi] at hb
  obtain rfl : BinInterval.Bin s e = b := by simpa using hb
  have k1 := hval _ s hs
  have k2 := hval _ e he
  show (∃ t : ℤ, s.val ≤ c.val + t * (E n - E 0) ∧ c.val + t * (E n - E 0) < e.val) ↔ _
  unfold turnBins
  simp only [Set.mem_ofPred_eq]
  refine exists_congr fun t => ?_
  rw [k1, k2]
  push_cast
  norm_cast
end

/-- **C100 (variable-width cyclic axes of floats).** The same for floats if the first and the last edge are multiples of a power of two (and so many of them, as in C76). -/
theorem C100_variable_float [cfg : Cfg] [StdLib] {F : FFmt} {e : ℤ} {n : Nat} {E : ℤ → ℚ} {z : ℤ} {N : ℕ} {edges : List (Flt F)} {a : VariableCyclic (Flt F)} (hnew : VariableCyclic.new edges = .ok (.ok a))
    (hmem : n + 2 < usizeSize) (hfin : ∀ x ∈ edges, x.isFin) (hmono : ∀ i, E i < E (i + 1)) (hedges : (edges.map Flt.val).Perm ((List.range (n + 1)).map fun k : Nat => E k))
    (he1 : F.qmin ≤ e) (he2 : e + F.p ≤ F.emax) (h0 : E 0 = z * pow2 e) (hN : E n = (z + N) * pow2 e) (hNp : N ≤ 2 ^ F.p) (hz : |z| ≤ 2 ^ F.p) (hzN : |z + N| ≤ 2 ^ F.p) :
    ∃ lo, a.low = .ok lo ∧ lo.val = E 0 ∧ BinsAre a n (BinInterval.CoversTurnsF (N * pow2 e)) (GridTurns e lo) Flt.Is (turnBins E (N * pow2 e)) := by
  have hf : ∀ k : Nat, E k < E ((k + 1 : Nat) : ℤ) := fun k => by push_cast; exact hmono k
  have hnf := VariableCyclic.new_ok hnew
  have hv := VariableNoFlow.new_ok hnf
  obtain ⟨hp, hsort⟩ := (C10_variable_new_sorts edges).2 _ hv
  have hfin' : ∀ x ∈ a.axis.axis.binEdges, x.isFin := fun x hx => hfin x (hp.mem_iff.1 hx)
  have hsort' : a.axis.axis.binEdges.Pairwise (fun x y => x.val ≤ y.val) := by
    refine hsort.imp_of_mem fun {x y} hx hy h => ?_
    rw [Flt.le_fin (hfin' x hx) (hfin' y hy)] at h
    simpa using h
  obtain ⟨hlen, hval⟩ := sorted_edges (val := Flt.val) (f := fun k : Nat => E k) hp hsort' hf hedges
  obtain ⟨-, ⟨e0, he0, hlow, -⟩, ⟨el, hel, hhigh, -⟩, -, -⟩ := C13_variable_bins hv (by omega)
  have q1 : e0.val = E 0 := by rw [hval 0 e0 he0]; rfl
  have q2 : el.val = E n := by rw [hval _ el hel, hlen]; rfl
  obtain ⟨hF, -⟩ := C76_variable_cyclic hnew (by omega) hfin (distinct_edges hf hedges) he1 he2 e0 el hlow hhigh (q1.trans h0) (q2.trans hN) hNp hz hzN
  rw [hlen] at hF
  refine ⟨e0, hlow, q1, hF, ?_⟩
  intro i b hi hb (c : Flt F) x _ hx
  obtain ⟨hc, rfl⟩ : c.isFin ∧ c.val = x := hx
  obtain ⟨-, hbins, -⟩ := C14_variable_noflow_bins hnf (by omega)
  obtain ⟨s, t, hs, ht, hbi⟩ := hbins i (by omega)
  have hb : a.axis.bin i = .ok (some b) := hb
  rw [hbi] at hb
  obtain rfl : BinInterval.Bin s t = b := by simpa using hb
  have k1 := hval _ s hs
  have k2 := hval _ t ht
  have k2 : t.val = E (i + 1) := by rw [k2]; push_cast; rfl
  show (∃ k : ℤ, s.val ≤ c.val + k * (N * pow2 e) ∧ c.val + k * (N * pow2 e) < t.val) ↔ _
  unfold turnBins
  simp only [Set.mem_ofPred_eq]
  rw [k1, k2]

/-! ## The values read back -/

section
variable [cfg : Cfg] {A A' V : Type} [Axis A] [Axis A'] {a : A} {a' : A'} {n : Nat} {covers : Axis.Interval A → Axis.Coordinate A → Prop} {covers' : Axis.Interval A' → Axis.Coordinate A' → Prop}
  {same : Axis.Coordinate A → Axis.Coordinate A'} {dom : Axis.Coordinate A → Prop} {d : ℤ}

/-- **C100 (values).** Histograms on axes that are the same up to the numbering (`C100_round`), filled alike: the values of the second are those of the first in the same cyclic order, starting elsewhere. -/
theorem C100_values [RDefault V] (hn : 0 < n) (hc : Coarser a n covers a' n covers' same dom (roundBy n d)) {h : VecHistogram A V} {h' : VecHistogram A' V}
    (hnew : VecHistogram.new a = .ok h) (hnew' : VecHistogram.new a' = .ok h') (calls : List (Call V (Axis.Coordinate A))) (hd : ∀ call ∈ calls, dom call.coord) :
    (h'.callAllCaught (calls.map (Call.mapCoord same))).valuesIter = (h.callAllCaught calls).valuesIter.rotate (roundBy n (-d) 0) := by
  obtain ⟨l1, -, -⟩ := C28_dense hc.fine.lawful hnew calls
  obtain ⟨l2, -, -⟩ := C28_dense hc.coarse.lawful hnew' (calls.map (Call.mapCoord same))
  have key := fun i (hi : i < n) => C83_dense hc (roundBy_inj hn d) hnew hnew' calls hd hi
  have n1 : (h.callAllCaught calls).values.length = n := l1.size
  have n2 : (h'.callAllCaught (calls.map (Call.mapCoord same))).values.length = n := l2.size
  refine List.ext_getElem? fun j => ?_
  show (h'.callAllCaught (calls.map (Call.mapCoord same))).values[j]? = ((h.callAllCaught calls).values.rotate _)[j]?
  by_cases hj : j < n
  · rw [List.getElem?_rotate (by omega), n1]
    have e1 := roundBy_eq hn d (roundBy n (-d) j)
    have hr : (j + roundBy n (-d) 0) % n = roundBy n (-d) j := by
      have : (((j + roundBy n (-d) 0) % n : ℕ) : ℤ) = ((roundBy n (-d) j : ℕ) : ℤ) := by
        have h1 := Int.emod_nonneg ((j : ℤ) + -d) (b := n) (by omega)
        have h2 := Int.emod_nonneg (((0 : ℕ) : ℤ) + -d) (b := n) (by omega)
        unfold roundBy
        push_cast
        rw [Int.toNat_of_nonneg (by simpa using h2), Int.toNat_of_nonneg h1]
        simp [Int.add_emod]
      exact_mod_cast this
    rw [hr]
    obtain ⟨i, hi, hij⟩ := roundBy_surj hn d j hj
    have hback : roundBy n (-d) j = i := by
      refine roundBy_inj hn d _ _ (roundBy_lt hn _ _) hi ?_
      rw [hij]
      exact roundBy_back hn d j hj
    rw [hback, ← hij]
    exact key i hi
  · rw [List.getElem?_eq_none (by omega), List.getElem?_eq_none (by rw [List.length_rotate]; omega)]
end

/-! ## Whole turns, call by call -/

section
variable [cfg : Cfg] {A V : Type} [Axis A] {a : A} {n : Nat} {covers : Axis.Interval A → Axis.Coordinate A → Prop} {dom : Axis.Coordinate A → Prop}

theorem FaithfulAxis.index_eq (hF : FaithfulAxis a n covers dom) {c c' : Axis.Coordinate A} (hc : dom c) (hc' : dom c') (h : InSameBins a n covers c c') : Axis.index a c = Axis.index a c' := by
  obtain ⟨o, ho⟩ := hF.total c hc
  obtain ⟨o', ho'⟩ := hF.total c' hc'
  have key : ∀ i, i < n → (Axis.index a c = .ok (some i) ↔ Axis.index a c' = .ok (some i)) := by
    intro i hi
    obtain ⟨b, hb⟩ := hF.lawful.bin_some i hi
    rw [hF.index_iff c hc i b hi hb, hF.index_iff c' hc' i b hi hb, h i b hi hb]
  rcases o with _ | i
  · rcases o' with _ | j
    · rw [ho, ho']
    · rw [← (key j (hF.lawful.index_lt _ _ ho')).2 ho'] at ho'
      exact ho'.symm ▸ rfl
  · rw [ho, (key i (hF.lawful.index_lt _ _ ho)).1 ho]

theorem VecHistogram.call_congr {h : VecHistogram A V} {call call' : Call V (Axis.Coordinate A)} (hs : call' = call.mapCoord (fun _ => call'.coord)) (hi : Axis.index h.axes call.coord = Axis.index h.axes call'.coord) :
    h.call call = h.call call' := by
  generalize call'.coord = c' at hs hi
  subst hs
  cases call <;> simp only [Call.coord, Call.mapCoord, VecHistogram.call, VecHistogram.fill, VecHistogram.fillWith, VecHistogram.fillWithWeighted, VecHistogram.valueMut] at hi ⊢ <;> rw [hi]

theorem HashHistogram.call_congr [RDefault V] {h : HashHistogram A V} {call call' : Call V (Axis.Coordinate A)} (hs : call' = call.mapCoord (fun _ => call'.coord))
    (hi : Axis.index h.axes call.coord = Axis.index h.axes call'.coord) : h.call call = h.call call' := by
  generalize call'.coord = c' at hs hi
  subst hs
  cases call <;> simp only [Call.coord, Call.mapCoord, HashHistogram.call, HashHistogram.fill, HashHistogram.fillWith, HashHistogram.fillWithWeighted] at hi ⊢ <;> rw [hi]

/-- **C100 (coordinates in the same bins, dense).** If each coordinate is replaced by one that the same bins contain, nothing changes: not what the histogram holds after each call, nor which call panics. -/
theorem C100_same_bins (hF : FaithfulAxis a n covers dom) {h : VecHistogram A V} (ha : h.axes = a) {calls calls' : List (Call V (Axis.Coordinate A))}
    (hs : List.Forall₂ (SameButCoord fun c c' => dom c ∧ dom c' ∧ InSameBins a n covers c c') calls calls') :
    h.callAll calls = h.callAll calls' ∧ h.callAllCaught calls = h.callAllCaught calls' := by
  induction hs generalizing h with
  | nil => exact ⟨rfl, rfl⟩
  | @cons call call' cs cs' h1 _ ih =>
    obtain ⟨e, d1, d2, e2⟩ := h1
    have hcall : h.call call = h.call call' := VecHistogram.call_congr e (by rw [ha]; exact hF.index_eq d1 d2 e2)
    have hax : (h.call call').1.axes = a := by rw [← ha]; exact VecHistogram.call_axes h call'
    obtain ⟨i1, i2⟩ := ih hax
    constructor
    · unfold VecHistogram.callAll
      rw [hcall]
      rcases hcc : h.call call' with ⟨h', p⟩
      rw [hcc] at i1
      cases p with
      | none => exact i1
      | some p => rfl
    · unfold VecHistogram.callAllCaught at i2 ⊢
      rw [List.foldl_cons, List.foldl_cons, hcall]
      exact i2

/-- **C100 (coordinates in the same bins, sparse).** -/
theorem C100_same_bins_sparse [RDefault V] (hF : FaithfulAxis a n covers dom) {h : HashHistogram A V} (ha : h.axes = a) {calls calls' : List (Call V (Axis.Coordinate A))}
    (hs : List.Forall₂ (SameButCoord fun c c' => dom c ∧ dom c' ∧ InSameBins a n covers c c') calls calls') :
    h.callAll calls = h.callAll calls' ∧ h.callAllCaught calls = h.callAllCaught calls' := by
  induction hs generalizing h with
  | nil => exact ⟨rfl, rfl⟩
  | @cons call call' cs cs' h1 _ ih =>
    obtain ⟨e, d1, d2, e2⟩ := h1
    have hcall : h.call call = h.call call' := HashHistogram.call_congr e (by rw [ha]; exact hF.index_eq d1 d2 e2)
    have hax : (h.call call').1.axes = a := by rw [← ha]; exact HashHistogram.call_axes h call'
    obtain ⟨i1, i2⟩ := ih hax
    constructor
    · unfold HashHistogram.callAll
      rw [hcall]
      rcases hcc : h.call call' with ⟨h', p⟩
      rw [hcc] at i1
      cases p with
      | none => exact i1
      | some p => rfl
    · unfold HashHistogram.callAllCaught at i2 ⊢
      rw [List.foldl_cons, List.foldl_cons, hcall]
      exact i2

/-- **C100 (whole turns).** Coordinates a whole number of turns apart are in the same bins of a cyclic axis, so (`C100_same_bins`) moving any of the coordinates by any number of whole turns changes nothing. -/
theorem C100_turns {E : ℤ → ℚ} {P : ℚ} {is : Axis.Coordinate A → ℚ → Prop} (ha : BinsAre a n covers dom is (turnBins E P)) {c c' : Axis.Coordinate A} (hc : dom c) (hc' : dom c') {x : ℚ} {t : ℤ} (hx : is c x)
    (hx' : is c' (x + t * P)) : InSameBins a n covers c c' ∧ Axis.index a c = Axis.index a c' := by
  have : InSameBins a n covers c c' := by
    intro i b hi hb
    rw [ha.contains i b hi hb c x hc hx, ha.contains i b hi hb c' _ hc' hx']
    unfold turnBins
    simp only [Set.mem_ofPred_eq]
    constructor
    · rintro ⟨k, h1, h2⟩
      exact ⟨k - t, by push_cast; linarith, by push_cast; linarith⟩
    · rintro ⟨k, h1, h2⟩
      exact ⟨k + t, by push_cast; linarith, by push_cast; linarith⟩
  exact ⟨this, ha.faithful.index_eq hc hc' this⟩
end
end NdHist
