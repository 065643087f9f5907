import Verif.SpecMirror
import Verif.Props.Rescale
import Verif.Props.Cyclic
/-!
# C101: mirrored data on mirrored axes
-/
namespace NdHist

section
variable [cfg : Cfg] {A A' : Type} [Axis A] [Axis A'] {a : A} {a' : A'} {n : Nat} {covers : Axis.Interval A → Axis.Coordinate A → Prop} {covers' : Axis.Interval A' → Axis.Coordinate A' → Prop}
  {dom₁ : Axis.Coordinate A → Prop} {dom₂ : Axis.Coordinate A' → Prop} {is₁ : Axis.Coordinate A → ℚ → Prop} {is₂ : Axis.Coordinate A' → ℚ → Prop} {same : Axis.Coordinate A → Axis.Coordinate A'}
  {dom : Axis.Coordinate A → Prop} {E E' : Nat → ℚ} {m : ℚ}

/-- axes with `N` bins each whose bins correspond in the reversed order -/
theorem Coarser.of_reversed {N : Nat} {S S' : Nat → Set ℚ} (ha : BinsAre a N covers dom₁ is₁ S) (ha' : BinsAre a' N covers' dom₂ is₂ S')
    (hsame : ∀ c, dom c → dom₁ c ∧ dom₂ (same c) ∧ ∃ x y, is₁ c x ∧ is₂ (same c) y ∧ ∀ i, i < N → (y ∈ S' (N - 1 - i) ↔ x ∈ S i)) :
    Coarser a N covers a' N covers' same dom (fun i => N - 1 - i) ∧ ∀ i j, i < N → j < N → N - 1 - i = N - 1 - j → i = j := by
  refine ⟨⟨ha.faithful.mono fun c hc => (hsame c hc).1, ha'.faithful.mono (by rintro _ ⟨c, hc, rfl⟩; exact (hsame c hc).2.1), fun i hi => by show N - 1 - i < N; omega, ?_⟩, fun i j hi hj h => by omega⟩
  intro j b' hj hb' c hc
  obtain ⟨h1, h2, x, y, hx, hy, hS⟩ := hsame c hc
  have hi : N - 1 - j < N := by omega
  obtain ⟨b, hb⟩ := ha.faithful.lawful.bin_some (N - 1 - j) hi
  have e : N - 1 - (N - 1 - j) = j := by omega
  rw [ha'.contains j b' hj hb' _ _ h2 hy]
  have hS' := hS (N - 1 - j) hi
  rw [e] at hS'
  rw [hS', ← ha.contains _ b hi hb c x h1 hx]
  constructor
  · intro h
    exact ⟨_, b, hi, e, hb, h⟩
  · rintro ⟨i', b₂, hi', he, hb₂, h⟩
    have he : N - 1 - i' = j := he
    obtain rfl : i' = N - 1 - j := by omega
    have : b₂ = b := by rw [hb] at hb₂; simpa using hb₂.symm
    rwa [this] at h

/-- **C101 (order reversed).** An axis with `n` bins and flow bins, a second axis with `n` bins and flow bins, and coordinates for which the second axis has the opposite order: `x` is at or above edge `k` exactly if `y` is below
edge `n - k` of the second axis. What the first axis counts in bin `i` (flow bins included) the second counts in bin `n + 1 - i`. -/
theorem C101_reversed (ha : BinsAre a (n + 2) covers dom₁ is₁ (flowBins E n)) (ha' : BinsAre a' (n + 2) covers' dom₂ is₂ (flowBins E' n))
    (hsame : ∀ c, dom c → dom₁ c ∧ dom₂ (same c) ∧ ∃ x y, is₁ c x ∧ is₂ (same c) y ∧ ∀ k, k ≤ n → (E k ≤ x ↔ y < E' (n - k))) :
    Coarser a (n + 2) covers a' (n + 2) covers' same dom (fun i => n + 1 - i) ∧ ∀ i j, i < n + 2 → j < n + 2 → n + 1 - i = n + 1 - j → i = j := by
  refine Coarser.of_reversed (N := n + 2) ha ha' fun c hc => ?_
  obtain ⟨h1, h2, x, y, hx, hy, h⟩ := hsame c hc
  refine ⟨h1, h2, x, y, hx, hy, fun i hi => ?_⟩
  rw [show n + 2 - 1 - i = n + 1 - i by omega]
  unfold flowBins
  rcases Nat.eq_zero_or_pos i with rfl | hpos
  · have := h 0 (by omega)
    rw [if_neg (by omega), if_pos (by omega), if_pos rfl, Set.mem_ofPred_eq, Set.mem_ofPred_eq, ← not_le (a := E 0), this, Nat.sub_zero, not_lt]
  · by_cases hl : i = n + 1
    · subst hl
      have := h n le_rfl
      rw [if_pos (by omega), if_neg (by omega), if_pos rfl, Set.mem_ofPred_eq, Set.mem_ofPred_eq, this, Nat.sub_self]
    · have k1 := h (i - 1) (by omega)
      have k2 := h i (by omega)
      rw [if_neg (by omega), if_neg (by omega), if_neg (by omega), if_neg hl, Set.mem_ofPred_eq, Set.mem_ofPred_eq, k1, ← not_le (a := E i), k2, not_lt, show n + 1 - i - 1 = n - i by omega,
        show n - (i - 1) = n + 1 - i by omega, and_comm]

/-- **C101 (order reversed, no flow bins).** -/
theorem C101_reversed_noflow (ha : BinsAre a n covers dom₁ is₁ (plainBins E)) (ha' : BinsAre a' n covers' dom₂ is₂ (plainBins E'))
    (hsame : ∀ c, dom c → dom₁ c ∧ dom₂ (same c) ∧ ∃ x y, is₁ c x ∧ is₂ (same c) y ∧ ∀ k, k ≤ n → (E k ≤ x ↔ y < E' (n - k))) :
    Coarser a n covers a' n covers' same dom (fun i => n - 1 - i) ∧ ∀ i j, i < n → j < n → n - 1 - i = n - 1 - j → i = j := by
  refine Coarser.of_reversed ha ha' fun c hc => ?_
  obtain ⟨h1, h2, x, y, hx, hy, h⟩ := hsame c hc
  refine ⟨h1, h2, x, y, hx, hy, fun i hi => ?_⟩
  unfold plainBins
  have k1 := h i (by omega)
  have k2 := h (i + 1) (by omega)
  rw [Set.mem_ofPred_eq, Set.mem_ofPred_eq, k1, ← not_le (a := E (i + 1)), k2, not_lt, show n - 1 - i + 1 = n - i by omega, show n - (i + 1) = n - 1 - i by omega, and_comm]

/-- **C101 (mirror).** Both the edges and the coordinates mirrored (`x` to `m - x`), no coordinate on an edge: the bins are reversed, underflow and overflow swapped. -/
theorem C101_mirror (ha : BinsAre a (n + 2) covers dom₁ is₁ (flowBins E n)) (ha' : BinsAre a' (n + 2) covers' dom₂ is₂ (flowBins (mirrorEdges E n m) n))
    (hsame : ∀ c, dom c → dom₁ c ∧ dom₂ (same c) ∧ ∃ x, is₁ c x ∧ is₂ (same c) (m - x) ∧ ∀ k, k ≤ n → x ≠ E k) :
    Coarser a (n + 2) covers a' (n + 2) covers' same dom (fun i => n + 1 - i) ∧ ∀ i j, i < n + 2 → j < n + 2 → n + 1 - i = n + 1 - j → i = j := by
  refine C101_reversed ha ha' fun c hc => ?_
  obtain ⟨h1, h2, x, hx, hy, h⟩ := hsame c hc
  refine ⟨h1, h2, x, _, hx, hy, fun k hk => ?_⟩
  have := h k hk
  unfold mirrorEdges
  rw [show n - (n - k) = k by omega]
  constructor
  · intro hle
    have := lt_of_le_of_ne hle this.symm
    linarith
  · intro hlt; linarith

/-- **C101 (mirror, no flow bins).** -/
theorem C101_mirror_noflow (ha : BinsAre a n covers dom₁ is₁ (plainBins E)) (ha' : BinsAre a' n covers' dom₂ is₂ (plainBins (mirrorEdges E n m)))
    (hsame : ∀ c, dom c → dom₁ c ∧ dom₂ (same c) ∧ ∃ x, is₁ c x ∧ is₂ (same c) (m - x) ∧ ∀ k, k ≤ n → x ≠ E k) :
    Coarser a n covers a' n covers' same dom (fun i => n - 1 - i) ∧ ∀ i j, i < n → j < n → n - 1 - i = n - 1 - j → i = j := by
  refine C101_reversed_noflow ha ha' fun c hc => ?_
  obtain ⟨h1, h2, x, hx, hy, h⟩ := hsame c hc
  refine ⟨h1, h2, x, _, hx, hy, fun k hk => ?_⟩
  have := h k hk
  unfold mirrorEdges
  rw [show n - (n - k) = k by omega]
  constructor
  · intro hle
    have := lt_of_le_of_ne hle this.symm
    linarith
  · intro hlt; linarith

/-- **C101 (whole numbers).** With whole numbers for edges and coordinates the coordinates are mirrored to `m - 1 - x`; then there are no exceptions. -/
theorem C101_mirror_whole {E : Nat → ℤ} {m : ℤ} (ha : BinsAre a (n + 2) covers dom₁ is₁ (flowBins (fun k => E k) n)) (ha' : BinsAre a' (n + 2) covers' dom₂ is₂ (flowBins (mirrorEdges (fun k => E k) n m) n))
    (hsame : ∀ c, dom c → dom₁ c ∧ dom₂ (same c) ∧ ∃ x : ℤ, is₁ c x ∧ is₂ (same c) ((m - 1 - x : ℤ) : ℚ)) :
    Coarser a (n + 2) covers a' (n + 2) covers' same dom (fun i => n + 1 - i) ∧ ∀ i j, i < n + 2 → j < n + 2 → n + 1 - i = n + 1 - j → i = j := by
  refine C101_reversed ha ha' fun c hc => ?_
  obtain ⟨h1, h2, x, hx, hy⟩ := hsame c hc
  refine ⟨h1, h2, x, _, hx, hy, fun k hk => ?_⟩
  unfold mirrorEdges
  show (E k : ℚ) ≤ x ↔ _ < (m : ℚ) - E (n - (n - k))
  rw [show n - (n - k) = k by omega]
  norm_cast
  constructor <;> intro h <;> omega

/-- **C101 (whole numbers, no flow bins).** -/
theorem C101_mirror_whole_noflow {E : Nat → ℤ} {m : ℤ} (ha : BinsAre a n covers dom₁ is₁ (plainBins (fun k => E k))) (ha' : BinsAre a' n covers' dom₂ is₂ (plainBins (mirrorEdges (fun k => E k) n m)))
    (hsame : ∀ c, dom c → dom₁ c ∧ dom₂ (same c) ∧ ∃ x : ℤ, is₁ c x ∧ is₂ (same c) ((m - 1 - x : ℤ) : ℚ)) :
    Coarser a n covers a' n covers' same dom (fun i => n - 1 - i) ∧ ∀ i j, i < n → j < n → n - 1 - i = n - 1 - j → i = j := by
  refine C101_reversed_noflow ha ha' fun c hc => ?_
  obtain ⟨h1, h2, x, hx, hy⟩ := hsame c hc
  refine ⟨h1, h2, x, _, hx, hy, fun k hk => ?_⟩
  unfold mirrorEdges
  show (E k : ℚ) ≤ x ↔ _ < (m : ℚ) - E (n - (n - k))
  rw [show n - (n - k) = k by omega]
  norm_cast
  constructor <;> intro h <;> omega

/-- **C101 (on an edge).** A coordinate on edge `k` is the exception: it is counted in bin `k + 1`, and mirrored in bin `n - k + 1`, one above the mirrored bin `n + 1 - (k + 1) = n - k`. -/
theorem C101_edge (hE : ∀ k, E k < E (k + 1)) (ha : BinsAre a (n + 2) covers dom₁ is₁ (flowBins E n)) (ha' : BinsAre a' (n + 2) covers' dom₂ is₂ (flowBins (mirrorEdges E n m) n)) {k : Nat} (hk : k ≤ n)
    {c : Axis.Coordinate A} (h1 : dom₁ c) (h2 : dom₂ (same c)) (hx : is₁ c (E k)) (hy : is₂ (same c) (m - E k)) :
    Axis.index a c = .ok (some (k + 1)) ∧ Axis.index a' (same c) = .ok (some (n - k + 1)) := by
  have key : ∀ (E : Nat → ℚ) (k : Nat), k ≤ n → (∀ k, k < n → E k < E (k + 1)) → E k ∈ flowBins E n (k + 1) := by
    intro E k hk hE
    unfold flowBins
    rw [if_neg (by omega)]
    split
    · obtain rfl : k = n := by omega
      exact le_refl (E k)
    · exact ⟨le_refl (E k), hE k (by omega)⟩
  obtain ⟨b, hb⟩ := ha.faithful.lawful.bin_some (k + 1) (by omega)
  obtain ⟨b', hb'⟩ := ha'.faithful.lawful.bin_some (n - k + 1) (by omega)
  constructor
  · rw [ha.faithful.index_iff c h1 _ b (by omega) hb, ha.contains _ b (by omega) hb c _ h1 hx]
    exact key E k hk fun k _ => hE k
  · rw [ha'.faithful.index_iff _ h2 _ b' (by omega) hb', ha'.contains _ b' (by omega) hb' _ _ h2 hy]
    have := key (mirrorEdges E n m) (n - k) (by omega) fun j hj => by
      have := hE (n - (j + 1))
      rw [show n - (j + 1) + 1 = n - j by omega] at this
      unfold mirrorEdges
      linarith
    have e : mirrorEdges E n m (n - k) = m - E k := by unfold mirrorEdges; rw [show n - (n - k) = k by omega]
    rwa [e] at this

/-- **C101 (values).** The values of the mirrored histogram are those of the histogram in reversed order. -/
theorem C101_values {N : Nat} {V : Type} [RDefault V] (hc : Coarser a N covers a' N covers' same dom (fun i => N - 1 - i)) {h : VecHistogram A V} {h' : VecHistogram A' V}
    (hnew : VecHistogram.new a = .ok h) (hnew' : VecHistogram.new a' = .ok h') (calls : List (Call V (Axis.Coordinate A))) (hd : ∀ call ∈ calls, dom call.coord) :
    (h'.callAllCaught (calls.map (Call.mapCoord same))).valuesIter = (h.callAllCaught calls).valuesIter.reverse := by
  obtain ⟨l1, -, -⟩ := C28_dense hc.fine.lawful hnew calls
  obtain ⟨l2, -, -⟩ := C28_dense hc.coarse.lawful hnew' (calls.map (Call.mapCoord same))
  have key := fun i (hi : i < N) => C83_dense hc (fun i j hi hj h => by omega) hnew hnew' calls hd hi
  have n1 : (h.callAllCaught calls).values.length = N := l1.size
  have n2 : (h'.callAllCaught (calls.map (Call.mapCoord same))).values.length = N := l2.size
  refine List.ext_getElem? fun j => ?_
  show (h'.callAllCaught (calls.map (Call.mapCoord same))).values[j]? = ((h.callAllCaught calls).values.reverse)[j]?
  by_cases hj : j < N
  · have := key (N - 1 - j) (by omega)
    simp only [show N - 1 - (N - 1 - j) = j by omega] at this
    rw [List.getElem?_reverse (by omega), n1]
    exact this
  · rw [List.getElem?_eq_none (by omega), List.getElem?_eq_none (by rw [List.length_reverse]; omega)]
end

/-! ## The axes of the crate -/

theorem flowBins_even (num : Nat) (low step : ℚ) : evenBins num low step = flowBins (fun k => low + k * step) num := by
  funext i
  unfold evenBins flowBins
  split
  · simp
  · rfl

theorem plainBins_even (low step : ℚ) : evenBinsNoFlow low step = plainBins (fun k => low + k * step) := by
  funext i
  unfold evenBinsNoFlow plainBins
  push_cast
  rfl

theorem mirrorEdges_even {num k : Nat} (hk : k ≤ num) (low step m : ℚ) : mirrorEdges (fun k => low + k * step) num m k = (m - (low + num * step)) + k * step := by
  show m - (low + ((num - k : ℕ) : ℚ) * step) = _
  rw [Nat.cast_sub hk]
  ring

theorem flowBins_congr {E E' : Nat → ℚ} {n : Nat} (h : ∀ k, k ≤ n → E k = E' k) {i : Nat} (hi : i < n + 2) : flowBins E n i = flowBins E' n i := by
  unfold flowBins
  split
  · rw [h 0 (by omega)]
  · split
    · rw [h n le_rfl]
    · rw [h i (by omega), h (i - 1) (by omega)]

theorem BinsAre.mono_is [Cfg] {A : Type} [Axis A] {a : A} {n : Nat} {covers : Axis.Interval A → Axis.Coordinate A → Prop} {dom dom' : Axis.Coordinate A → Prop} {is is' : Axis.Coordinate A → ℚ → Prop} {S : Nat → Set ℚ}
    (ha : BinsAre a n covers dom is S) (hd : ∀ c, dom' c → dom c) (h : ∀ c x, is' c x → is c x) : BinsAre a n covers dom' is' S :=
  ⟨ha.faithful.mono hd, fun i b hi hb c x hc hx => ha.contains i b hi hb c x (hd c hc) (h c x hx)⟩

theorem BinsAre.congr [Cfg] {A : Type} [Axis A] {a : A} {n : Nat} {covers : Axis.Interval A → Axis.Coordinate A → Prop} {dom : Axis.Coordinate A → Prop} {is : Axis.Coordinate A → ℚ → Prop} {S S' : Nat → Set ℚ}
    (ha : BinsAre a n covers dom is S) (h : ∀ i, i < n → S i = S' i) : BinsAre a n covers dom is S' :=
  ⟨ha.faithful, fun i b hi hb c x hc hx => by rw [← h i hi]; exact ha.contains i b hi hb c x hc hx⟩

section
variable [cfg : Cfg] {A A' : Type} [Axis A] [Axis A'] {a : A} {a' : A'} {num : Nat} {covers : Axis.Interval A → Axis.Coordinate A → Prop} {covers' : Axis.Interval A' → Axis.Coordinate A' → Prop}
  {dom₁ : Axis.Coordinate A → Prop} {dom₂ : Axis.Coordinate A' → Prop} {is₁ : Axis.Coordinate A → ℚ → Prop} {is₂ : Axis.Coordinate A' → ℚ → Prop} {same : Axis.Coordinate A → Axis.Coordinate A'}
  {dom : Axis.Coordinate A → Prop} {m low low' step : ℚ}

/-- **C101 (uniform axes).** `num` bins of the same width from `low` to `low + num * step`, and as many from `m - (low + num * step)`. -/
theorem C101_uniform (hlow : low' = m - (low + num * step)) (ha : BinsAre a (num + 2) covers dom₁ is₁ (evenBins num low step)) (ha' : BinsAre a' (num + 2) covers' dom₂ is₂ (evenBins num low' step))
    (hsame : ∀ c, dom c → dom₁ c ∧ dom₂ (same c) ∧ ∃ x, is₁ c x ∧ is₂ (same c) (m - x) ∧ ∀ k : Nat, k ≤ num → x ≠ low + k * step) :
    Coarser a (num + 2) covers a' (num + 2) covers' same dom (fun i => num + 1 - i) ∧ ∀ i j, i < num + 2 → j < num + 2 → num + 1 - i = num + 1 - j → i = j := by
  rw [flowBins_even] at ha ha'
  refine C101_mirror (m := m) ha (ha'.congr fun i hi => flowBins_congr (fun k hk => ?_) hi) hsame
  rw [mirrorEdges_even hk, hlow]

/-- **C101 (uniform axes, whole numbers).** -/
theorem C101_uniform_whole {m low low' step : ℤ} (hlow : low' = m - (low + num * step)) (ha : BinsAre a (num + 2) covers dom₁ is₁ (evenBins num low step))
    (ha' : BinsAre a' (num + 2) covers' dom₂ is₂ (evenBins num low' step))
    (hsame : ∀ c, dom c → dom₁ c ∧ dom₂ (same c) ∧ ∃ x : ℤ, is₁ c x ∧ is₂ (same c) ((m - 1 - x : ℤ) : ℚ)) :
    Coarser a (num + 2) covers a' (num + 2) covers' same dom (fun i => num + 1 - i) ∧ ∀ i j, i < num + 2 → j < num + 2 → num + 1 - i = num + 1 - j → i = j := by
  rw [flowBins_even] at ha ha'
  refine C101_mirror_whole (E := fun k => low + k * step) (m := m) (ha.congr fun i hi => flowBins_congr (fun k hk => by push_cast; rfl) hi)
    (ha'.congr fun i hi => flowBins_congr (fun k hk => ?_) hi) hsame
  have := mirrorEdges_even hk (low : ℚ) step m
  push_cast
  rw [this, hlow]
  push_cast
  ring
end

section
variable [cfg : Cfg] [StdLib]

/-- variable-width axes whose coordinates are numbers in the order of the numbers -/
theorem binsAre_variable {T : Type} [POrd T] [LawfulPOrd T] {fin : T → Prop} {val : T → ℚ} (hle : ∀ x y : T, fin x → fin y → (POrd.le x y = true ↔ val x ≤ val y))
    (hlt : ∀ x y : T, fin x → fin y → (POrd.lt x y = true ↔ val x < val y)) (heq : ∀ x y : T, fin x → fin y → (POrd.eq x y = true ↔ val x = val y)) {n : Nat} {E : Nat → ℚ} {edges : List T} {a : Variable T}
    (hnew : Variable.new edges = .ok (.ok a)) (hmem : n + 2 < usizeSize) (hfin : ∀ x ∈ edges, fin x) (hmono : ∀ i, E i < E (i + 1)) (hedges : (edges.map val).Perm ((List.range (n + 1)).map E)) :
    BinsAre a (n + 2) BinInterval.Covers (fun c => POrd.eq c c = true) (fun c x => fin c ∧ val c = x) (flowBins E n) := by
  obtain ⟨hp, hsort⟩ := (C10_variable_new_sorts edges).2 _ hnew
  have hfin' : ∀ x ∈ a.binEdges, fin x := fun x hx => hfin x (hp.mem_iff.1 hx)
  have hsort' : a.binEdges.Pairwise (fun x y => val x ≤ val y) := hsort.imp_of_mem fun {x y} hx hy h => (hle x y (hfin' x hx) (hfin' y hy)).1 h
  obtain ⟨hlen, hval⟩ := sorted_edges hp hsort' hmono hedges
  have hd : edges.Pairwise (fun x y => POrd.eq x y = false) := by
    refine (distinct_edges hmono hedges).imp_of_mem fun {x y} hx hy h => ?_
    rw [← Bool.not_eq_true, heq x y (hfin x hx) (hfin y hy)]
    exact h
  have hF := C51_variable hnew (by omega) hd
  rw [hlen] at hF
  refine ⟨hF, ?_⟩
  rintro i b hi hb c x _ ⟨hc, rfl⟩
  have hb : a.bin i = .ok (some b) := hb
  obtain ⟨-, ⟨e0, he0, -, b0⟩, ⟨el, hel, -, bl⟩, bmid, -⟩ := C13_variable_bins hnew (by omega)
  have f : ∀ {k : Nat} {e : T}, a.binEdges[k]? = some e → fin e := fun h => hfin' _ (List.mem_of_getElem? h)
  unfold flowBins
  rcases Nat.eq_zero_or_pos i with rfl | hpos
  · rw [b0] at hb
    obtain rfl : BinInterval.Underflow e0 = b := by simpa using hb
    show POrd.lt c e0 = true ↔ _
    rw [hlt _ _ hc (f he0), hval 0 e0 he0, if_pos rfl]
    rfl
  · by_cases hl : i = n + 1
    · subst hl
      rw [hlen] at bl hel
      rw [bl] at hb
      obtain rfl : BinInterval.Overflow el = b := by simpa using hb
      show POrd.le el c = true ↔ _
      rw [hle _ _ (f hel) hc, hval _ el hel, if_neg (by omega), if_pos rfl]
      rfl
    · obtain ⟨k, rfl⟩ : ∃ k, i = k + 1 := ⟨i - 1, by omega⟩
      obtain ⟨s, t, hs, ht, hbk⟩ := bmid k (by omega)
      rw [hbk] at hb
      obtain rfl : BinInterval.Bin s t = b := by simpa using hb
      show POrd.le s c = true ∧ POrd.lt c t = true ↔ _
      rw [hle _ _ (f hs) hc, hlt _ _ hc (f ht), hval _ s hs, hval _ t ht, if_neg (by omega), if_neg hl]
      rfl

/-- the same without flow bins -/
theorem binsAre_variable_noflow {T : Type} [POrd T] [LawfulPOrd T] {fin : T → Prop} {val : T → ℚ} (hle : ∀ x y : T, fin x → fin y → (POrd.le x y = true ↔ val x ≤ val y))
    (hlt : ∀ x y : T, fin x → fin y → (POrd.lt x y = true ↔ val x < val y)) (heq : ∀ x y : T, fin x → fin y → (POrd.eq x y = true ↔ val x = val y)) {n : Nat} {E : Nat → ℚ} {edges : List T} {a : VariableNoFlow T}
    (hnew : VariableNoFlow.new edges = .ok (.ok a)) (hmem : n + 2 < usizeSize) (hfin : ∀ x ∈ edges, fin x) (hmono : ∀ i, E i < E (i + 1)) (hedges : (edges.map val).Perm ((List.range (n + 1)).map E)) :
    BinsAre a n BinInterval.Covers (fun _ => True) (fun c x => fin c ∧ val c = x) (plainBins E) := by
  have hv := VariableNoFlow.new_ok hnew
  obtain ⟨hp, hsort⟩ := (C10_variable_new_sorts edges).2 _ hv
  have hfin' : ∀ x ∈ a.axis.binEdges, fin x := fun x hx => hfin x (hp.mem_iff.1 hx)
  have hsort' : a.axis.binEdges.Pairwise (fun x y => val x ≤ val y) := hsort.imp_of_mem fun {x y} hx hy h => (hle x y (hfin' x hx) (hfin' y hy)).1 h
  obtain ⟨hlen, hval⟩ := sorted_edges hp hsort' hmono hedges
  have hd : edges.Pairwise (fun x y => POrd.eq x y = false) := by
    refine (distinct_edges hmono hedges).imp_of_mem fun {x y} hx hy h => ?_
    rw [← Bool.not_eq_true, heq x y (hfin x hx) (hfin y hy)]
    exact h
  have hF := C51_variable_noflow hnew (by omega) hd
  rw [hlen] at hF
  refine ⟨hF, ?_⟩
  rintro i b hi hb c x _ ⟨hc, rfl⟩
  have hb : a.bin i = .ok (some b) := hb
  obtain ⟨-, hbins, -⟩ := C14_variable_noflow_bins hnew (by omega)
  have f : ∀ {k : Nat} {e : T}, a.axis.binEdges[k]? = some e → fin e := fun h => hfin' _ (List.mem_of_getElem? h)
  obtain ⟨s, t, hs, ht, hbk⟩ := hbins i (by omega)
  rw [hbk] at hb
  obtain rfl : BinInterval.Bin s t = b := by simpa using hb
  show POrd.le s c = true ∧ POrd.lt c t = true ↔ _
  rw [hle _ _ (f hs) hc, hlt _ _ hc (f ht), hval _ s hs, hval _ t ht]
  rfl

/-- **C101 (variable-width axes, integers).** The bins of an axis built from the edges `E 0, ..., E n` in any order. -/
theorem C101_variable_int {τ : IntTy} {n : Nat} {E : Nat → ℚ} (hmem : n + 2 < usizeSize) (hmono : ∀ i, E i < E (i + 1)) {edges : List (MInt τ)} (hedges : (edges.map fun e => (e.val : ℚ)).Perm ((List.range (n + 1)).map E)) :
    (∀ a : Variable (MInt τ), Variable.new edges = .ok (.ok a) → BinsAre a (n + 2) (BinInterval.Covers (T := MInt τ)) (fun _ => True) MInt.Is (flowBins E n)) ∧
    ∀ a : VariableNoFlow (MInt τ), VariableNoFlow.new edges = .ok (.ok a) → BinsAre a n (BinInterval.Covers (T := MInt τ)) (fun _ => True) MInt.Is (plainBins E) := by
  have h1 : ∀ x y : MInt τ, True → True → (POrd.le x y = true ↔ (x.val : ℚ) ≤ y.val) := fun x y _ _ => by rw [MInt.le_iff, decide_eq_true_eq]; norm_cast
  have h2 : ∀ x y : MInt τ, True → True → (POrd.lt x y = true ↔ (x.val : ℚ) < y.val) := fun x y _ _ => by rw [MInt.lt_iff, decide_eq_true_eq]; norm_cast
  have h3 : ∀ x y : MInt τ, True → True → (POrd.eq x y = true ↔ (x.val : ℚ) = y.val) := fun x y _ _ => by rw [MInt.eq_iff, decide_eq_true_eq]; norm_cast
  refine ⟨fun a hnew => ?_, fun a hnew => ?_⟩
  · exact (binsAre_variable h1 h2 h3 hnew hmem (fun _ _ => trivial) hmono hedges).mono_is (fun c _ => (h3 c c trivial trivial).2 rfl) fun c x h => ⟨trivial, h⟩
  · exact (binsAre_variable_noflow h1 h2 h3 hnew hmem (fun _ _ => trivial) hmono hedges).mono_is (fun _ _ => trivial) fun c x h => ⟨trivial, h⟩

/-- **C101 (variable-width axes, floats).** The same for any finite edges; the coordinates are the numbers. -/
theorem C101_variable_float {F : FFmt} {n : Nat} {E : Nat → ℚ} (hmem : n + 2 < usizeSize) (hmono : ∀ i, E i < E (i + 1)) {edges : List (Flt F)} (hfin : ∀ x ∈ edges, x.isFin)
    (hedges : (edges.map Flt.val).Perm ((List.range (n + 1)).map E)) :
    (∀ a : Variable (Flt F), Variable.new edges = .ok (.ok a) → BinsAre a (n + 2) BinInterval.Covers (fun c => c.isFin) Flt.Is (flowBins E n)) ∧
    ∀ a : VariableNoFlow (Flt F), VariableNoFlow.new edges = .ok (.ok a) → BinsAre a n BinInterval.Covers (fun c => c.isFin) Flt.Is (plainBins E) := by
  have h1 : ∀ x y : Flt F, x.isFin → y.isFin → (POrd.le x y = true ↔ x.val ≤ y.val) := fun x y hx hy => by rw [Flt.le_fin hx hy, decide_eq_true_eq]
  have h2 : ∀ x y : Flt F, x.isFin → y.isFin → (POrd.lt x y = true ↔ x.val < y.val) := fun x y hx hy => by rw [Flt.lt_fin hx hy, decide_eq_true_eq]
  have h3 : ∀ x y : Flt F, x.isFin → y.isFin → (POrd.eq x y = true ↔ x.val = y.val) := fun x y hx hy => by rw [Flt.eq_fin hx hy, decide_eq_true_eq]
  refine ⟨fun a hnew => ?_, fun a hnew => ?_⟩
  · exact (binsAre_variable h1 h2 h3 hnew hmem hfin hmono hedges).mono_is (fun c h => (h3 c c h h).2 rfl) fun c x h => h
  · exact (binsAre_variable_noflow h1 h2 h3 hnew hmem hfin hmono hedges).mono_is (fun _ _ => trivial) fun c x h => h
end

section
variable [cfg : Cfg] {A A' : Type} [Axis A] [Axis A'] {a : A} {a' : A'} {n : Nat} {covers : Axis.Interval A → Axis.Coordinate A → Prop} {covers' : Axis.Interval A' → Axis.Coordinate A' → Prop}
  {dom₁ : Axis.Coordinate A → Prop} {dom₂ : Axis.Coordinate A' → Prop} {is₁ : Axis.Coordinate A → ℚ → Prop} {is₂ : Axis.Coordinate A' → ℚ → Prop} {same : Axis.Coordinate A → Axis.Coordinate A'}
  {dom : Axis.Coordinate A → Prop} {E E' : ℤ → ℚ} {m P : ℚ}

/-- **C101 (cyclic axes).** The same for cyclic axes (see C100 for the edges, continued without end): running round the circle the other way. Coordinates may be moved by whole turns. -/
theorem C101_cyclic (hper : ∀ i, E (i + n) = E i + P) (hE : ∀ i, E' i = m - E (n - i)) (ha : BinsAre a n covers dom₁ is₁ (turnBins E P)) (ha' : BinsAre a' n covers' dom₂ is₂ (turnBins E' P))
    (hsame : ∀ c, dom c → dom₁ c ∧ dom₂ (same c) ∧ ∃ (x : ℚ) (t : ℤ), is₁ c x ∧ is₂ (same c) (m - x + t * P) ∧ ∀ k : ℤ, x ≠ E k) :
    Coarser a n covers a' n covers' same dom (fun i => n - 1 - i) ∧ ∀ i j, i < n → j < n → n - 1 - i = n - 1 - j → i = j := by
  refine Coarser.of_reversed ha ha' fun c hc => ?_
  obtain ⟨h1, h2, x, t, hx, hy, h⟩ := hsame c hc
  refine ⟨h1, h2, x, _, hx, hy, fun i hi => ?_⟩
  have hne : ∀ (k u : ℤ), x + u * P ≠ E k := by
    intro k u he
    refine h (k + n * (-u)) ?_
    rw [edges_turn hper]
    push_cast
    linarith
  have e1 : E' ((n - 1 - i : ℕ) : ℤ) = m - E (i + 1) := by rw [hE]; congr 2; omega
  have e2 : E' (((n - 1 - i : ℕ) : ℤ) + 1) = m - E i := by rw [hE]; congr 2; omega
  unfold turnBins
  simp only [Set.mem_ofPred_eq]
  rw [e1, e2]
  constructor
  · rintro ⟨u, k1, k2⟩
    refine ⟨-(u + t), ?_, lt_of_le_of_ne ?_ (hne _ _)⟩ <;> push_cast <;> linarith
  · rintro ⟨u, k1, k2⟩
    have k1 := lt_of_le_of_ne k1 (hne _ _).symm
    refine ⟨-(u + t), ?_, ?_⟩ <;> push_cast <;> linarith
end
end NdHist
