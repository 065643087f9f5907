import Verif.Lemmas.Axes
import Verif.Props.UniformInt
import Verif.Props.Variable
import Verif.Props.Category
/-!
# Tuples of axes and axis iteration (C20-C25)

`TupLawful item ns`: the axes of the tuple are lawful and have `ns` bins. `LawfulAxis` is proved for the library's axes
at the end of the file. All results hold for any number of axes ≥ 2; `AxesTuple<(X,)>` delegates to its axis.
-/
set_option linter.unusedSectionVars false
namespace NdHist
section
variable [cfg : Cfg] {t₀ t₁ : AxTy} {ts : List AxTy}

/-! ## C20 -/

/-- Constructing the tuple succeeds when the number of cells fits in `usize`. -/
theorem C20_construct {item : Tup (t₀ :: t₁ :: ts)} {ns : List Nat} (hl : TupLawful item ns)
    (hpos : ∀ n ∈ ns, 0 < n) (hfit : ns.prod < usizeSize) :
    ∃ a, AxesTuple.fromTuple item = .ok a ∧ a.axes = item ∧ a.shape = prefixProd 1 ns := by
  refine ⟨⟨item, prefixProd 1 ns⟩, ?_, rfl, rfl⟩
  unfold AxesTuple.fromTuple
  rw [numBinsList_ok hl]
  simp only [Res.ok_bind]
  rw [scanProd_ok hpos (by simpa using hfit)]
  rfl

/-- **C20 (numbering).** The bin number of a coordinate is `i_0 + n_0*i_1 + n_0*n_1*i_2 + ...` of the per-axis bin numbers,
it is below `num_bins = n_0*n_1*...`. -/
theorem C20_index_formula {item : Tup (t₀ :: t₁ :: ts)} {ns : List Nat} (hl : TupLawful item ns)
    (hpos : ∀ n ∈ ns, 0 < n) (hfit : ns.prod < usizeSize) {a : AxesTuple t₀ t₁ ts}
    (ha : AxesTuple.fromTuple item = .ok a) :
    a.numBins = .ok ns.prod ∧
    ∀ c N, a.index c = .ok (some N) ↔ ∃ is, IndexOf item c is ∧ N = cellNumber 1 ns is ∧ N < ns.prod := by
  obtain ⟨a', ha', h1, h2⟩ := C20_construct hl hpos hfit
  rw [ha] at ha'
  simp only [Except.ok.injEq] at ha'
  subst ha'
  have hlen := hl.length
  constructor
  · unfold AxesTuple.numBins
    rw [h1, numBinsList_ok hl]
    simp only [Res.ok_bind]
    cases ns with
    | nil => simp at hlen
    | cons n ns =>
      simp only
      rw [foldlM_umul (fun m hm => hpos m (by simp [hm])) (by simpa using hfit)]
      simp only [Res.ok_bind]
      rw [umul_ok (by simpa using hfit)]
      simp
  · intro c N
    unfold AxesTuple.index
    rw [h1]
    constructor
    · intro h
      rw [Res.bind_eq_ok] at h
      obtain ⟨o, ho, h⟩ := h
      cases o with
      | none => simp at h
      | some is =>
        have hio := indices_some.mp ho
        have hg := hio.inGrid hl
        simp only [h2] at h
        rw [flatten_ok hg (by intro h'; simp [h'] at hlen) hfit] at h
        simp at h
        exact ⟨is, hio, h.symm, h ▸ cellNumber_lt hg⟩
    · rintro ⟨is, hio, rfl, _⟩
      have hg := hio.inGrid hl
      rw [indices_some.mpr hio]
      simp only [Res.ok_bind, h2]
      rw [flatten_ok hg (by intro h'; simp [h'] at hlen) hfit]
      rfl

/-- **C20 (injectivity).** Two cells have the same number only if they agree on every axis; hence two coordinates share a
bin exactly when they share a bin on every axis. -/
theorem C20_index_injective {item : Tup (t₀ :: t₁ :: ts)} {ns : List Nat} (hl : TupLawful item ns)
    (hpos : ∀ n ∈ ns, 0 < n) (hfit : ns.prod < usizeSize) {a : AxesTuple t₀ t₁ ts}
    (ha : AxesTuple.fromTuple item = .ok a) {c c' : Coords (t₀ :: t₁ :: ts)} {is is' : List Nat} {N N' : Nat}
    (hi : IndexOf item c is) (hi' : IndexOf item c' is')
    (hN : a.index c = .ok (some N)) (hN' : a.index c' = .ok (some N')) :
    N = N' ↔ is = is' := by
  obtain ⟨_, hf⟩ := C20_index_formula hl hpos hfit ha
  obtain ⟨js, hjs, rfl, _⟩ := (hf c N).mp hN
  obtain ⟨js', hjs', rfl, _⟩ := (hf c' N').mp hN'
  have e1 : js = is := by
    have := indices_some.mpr hjs; rw [indices_some.mpr hi] at this; simpa using this.symm
  have e2 : js' = is' := by
    have := indices_some.mpr hjs'; rw [indices_some.mpr hi'] at this; simpa using this.symm
  subst e1; subst e2
  constructor
  · intro h
    rw [← cellOf_cellNumber (hjs.inGrid hl), h, cellOf_cellNumber (hjs'.inGrid hl)]
  · intro h; rw [h]

/-! ## C21, C22 -/

/-- **C21 (a).** Looking up the bin number of a coordinate gives the tuple of the bins of its components. -/
theorem C21_bin_of_index {item : Tup (t₀ :: t₁ :: ts)} {ns : List Nat} (hl : TupLawful item ns)
    (hpos : ∀ n ∈ ns, 0 < n) (hfit : ns.prod < usizeSize) {a : AxesTuple t₀ t₁ ts}
    (ha : AxesTuple.fromTuple item = .ok a) {c : Coords (t₀ :: t₁ :: ts)} {N : Nat}
    (hN : a.index c = .ok (some N)) :
    ∃ is bs, IndexOf item c is ∧ a.bin N = .ok (some bs) ∧ BinsOf item is bs := by
  obtain ⟨_, hf⟩ := C20_index_formula hl hpos hfit ha
  obtain ⟨is, hio, rfl, _⟩ := (hf c N).mp hN
  obtain ⟨a', ha', h1, _⟩ := C20_construct hl hpos hfit
  rw [ha] at ha'
  simp only [Except.ok.injEq] at ha'
  subst ha'
  have hg := hio.inGrid hl
  obtain ⟨bs, hbs, hbs2⟩ := bins_ok hl hg
  refine ⟨is, bs, hio, ?_, hbs2⟩
  unfold AxesTuple.bin
  rw [h1, numBinsList_ok hl]
  simp only [Res.ok_bind]
  rw [digits_ok hpos hl.fits]
  simp only [Res.ok_bind, cellOf_cellNumber hg]
  exact hbs

/-- **C21 (b).** Every number below `num_bins` is the number of exactly one tuple of per-axis bins, and `bin` returns that
tuple. -/
theorem C21_bin_numbering {item : Tup (t₀ :: t₁ :: ts)} {ns : List Nat} (hl : TupLawful item ns)
    (hpos : ∀ n ∈ ns, 0 < n) (hfit : ns.prod < usizeSize) {a : AxesTuple t₀ t₁ ts}
    (ha : AxesTuple.fromTuple item = .ok a) {N : Nat} (hN : N < ns.prod) :
    ∃ is bs, InGrid ns is ∧ cellNumber 1 ns is = N ∧ a.bin N = .ok (some bs) ∧ BinsOf item is bs ∧
      ∀ is', InGrid ns is' → cellNumber 1 ns is' = N → is' = is := by
  obtain ⟨a', ha', h1, _⟩ := C20_construct hl hpos hfit
  rw [ha] at ha'
  simp only [Except.ok.injEq] at ha'
  subst ha'
  have hg := cellOf_inGrid hpos N
  obtain ⟨bs, hbs, hbs2⟩ := bins_ok hl hg
  refine ⟨cellOf N ns, bs, hg, cellNumber_cellOf hN, ?_, hbs2, ?_⟩
  · unfold AxesTuple.bin
    rw [h1, numBinsList_ok hl]
    simp only [Res.ok_bind]
    rw [digits_ok hpos hl.fits]
    simp only [Res.ok_bind]
    exact hbs
  · intro is' hg' hc
    rw [← hc, cellOf_cellNumber hg']

/-- **C21 (c).** The first axis varies fastest: going from bin number `N` to `N + 1` moves to the next bin of the first axis, whose number is
`N` modulo its number of bins, and leaves the bins of all other axes unchanged; after the last bin of the first axis (`N % n + 1 = n`) the first
axis starts again at its bin 0. -/
theorem C21_first_axis_fastest {item : Tup (t₀ :: t₁ :: ts)} {n : Nat} {ns : List Nat} (hl : TupLawful item (n :: ns))
    (hpos : ∀ m ∈ n :: ns, 0 < m) (hfit : (n :: ns).prod < usizeSize) {a : AxesTuple t₀ t₁ ts}
    (ha : AxesTuple.fromTuple item = .ok a) {N : Nat} (hN : N + 1 < (n :: ns).prod) :
    ∃ b rest b' rest', a.bin N = .ok (some (b, rest)) ∧ a.bin (N + 1) = .ok (some (b', rest')) ∧
      Axis.bin item.1 (N % n) = .ok (some b) ∧
      (N % n + 1 < n → Axis.bin item.1 (N % n + 1) = .ok (some b') ∧ rest' = rest) ∧
      (N % n + 1 = n → Axis.bin item.1 0 = .ok (some b')) := by
  have hn : 0 < n := hpos n (by simp)
  have key : ∀ M, M < (n :: ns).prod → ∃ b rest, a.bin M = .ok (some (b, rest)) ∧ Axis.bin item.1 (M % n) = .ok (some b) ∧
      BinsOf item.2 (cellOf (M / n) ns) rest := by
    intro M hM
    obtain ⟨is, ⟨b, rest⟩, hg, hc, hb, ⟨i, is', rfl, h1, h2⟩, huniq⟩ := C21_bin_numbering hl hpos hfit ha hM
    have := huniq (cellOf M (n :: ns)) (cellOf_inGrid hpos M) (cellNumber_cellOf hM)
    simp only [cellOf, List.cons.injEq] at this
    obtain ⟨rfl, rfl⟩ := this
    exact ⟨b, rest, hb, h1, h2⟩
  obtain ⟨b, rest, h1, h2, h3⟩ := key N (by omega)
  obtain ⟨b', rest', h1', h2', h3'⟩ := key (N + 1) hN
  refine ⟨b, rest, b', rest', h1, h1', h2, ?_, ?_⟩
  · intro h
    have hdm := Nat.div_add_mod N n
    have e1 : (N + 1) % n = N % n + 1 := by
      rw [Nat.add_mod, Nat.mod_eq_of_lt (show 1 < n by omega), Nat.mod_eq_of_lt h]
    have e2 : (N + 1) / n = N / n := by
      rw [Nat.div_eq_iff hn]
      have : N / n * n = n * (N / n) := Nat.mul_comm _ _
      omega
    rw [e1] at h2'
    rw [e2] at h3'
    exact ⟨h2', h3'.unique h3⟩
  · intro h
    have e1 : (N + 1) % n = 0 := by
      rw [← Nat.div_add_mod N n, Nat.add_assoc, h]; simp
    rw [e1] at h2'
    exact h2'

/-- **C22.** If no axis panics, `index` is `None` exactly when at least one axis has no bin for its component. -/
theorem C22_tuple_none {item : Tup (t₀ :: t₁ :: ts)} {ns : List Nat} (hl : TupLawful item ns)
    (hpos : ∀ n ∈ ns, 0 < n) (hfit : ns.prod < usizeSize) {a : AxesTuple t₀ t₁ ts}
    (ha : AxesTuple.fromTuple item = .ok a) (c : Coords (t₀ :: t₁ :: ts)) (htot : TupTotal item c) :
    (a.index c = .ok none ↔ SomeUncovered item c) ∧ ∃ o, a.index c = .ok o := by
  obtain ⟨a', ha', h1, h2⟩ := C20_construct hl hpos hfit
  rw [ha] at ha'
  simp only [Except.ok.injEq] at ha'
  subst ha'
  obtain ⟨h3, o, ho⟩ := indices_none htot
  have hlen := hl.length
  rw [← h3]
  unfold AxesTuple.index
  rw [h1, ho]
  cases o with
  | none => simp
  | some is =>
    simp only [Res.ok_bind, h2]
    rw [flatten_ok ((indices_some.mp ho).inGrid hl) (by intro h'; simp [h'] at hlen) hfit]
    simp

/-! ## C23: bin() out of range -/

/-- **C23 is false for tuples.** `AxesTuple::bin` never returns `None` for an out-of-range number: it wraps around, reporting
the bin of the number modulo `num_bins`. -/
theorem C23_tuple_bin_wraps {item : Tup (t₀ :: t₁ :: ts)} {ns : List Nat} (hl : TupLawful item ns)
    (hpos : ∀ n ∈ ns, 0 < n) (hfit : ns.prod < usizeSize) {a : AxesTuple t₀ t₁ ts}
    (ha : AxesTuple.fromTuple item = .ok a) (N k : Nat) : a.bin (N + k * ns.prod) = a.bin N := by
  obtain ⟨a', ha', h1, _⟩ := C20_construct hl hpos hfit
  rw [ha] at ha'
  simp only [Except.ok.injEq] at ha'
  subst ha'
  have : cellOf (N + k * ns.prod) ns = cellOf N ns := by
    induction k with
    | zero => simp
    | succ k ih => rw [Nat.succ_mul, ← Nat.add_assoc, cellOf_add_prod _ hpos, ih]
  unfold AxesTuple.bin
  rw [h1, numBinsList_ok hl]
  simp only [Res.ok_bind]
  rw [digits_ok hpos hl.fits, digits_ok hpos hl.fits, this]

/-- and if some axis has no bins at all (a `CategoryNoFlow` without categories), every `bin` lookup panics. -/
theorem C23_zero_bins_panics {item : Tup (t₀ :: t₁ :: ts)} {ns : List Nat} (hl : TupLawful item ns)
    (hz : 0 ∈ ns) {a : AxesTuple t₀ t₁ ts} (ha : AxesTuple.fromTuple item = .ok a) (N : Nat) :
    a.bin N = .error .divZero := by
  have h1 : a.axes = item := by
    unfold AxesTuple.fromTuple at ha
    rw [numBinsList_ok hl] at ha
    simp only [Res.ok_bind] at ha
    cases h : scanProd 1 ns with
    | error p => rw [h] at ha; simp at ha
    | ok s => rw [h] at ha; simp at ha; rw [← ha]
  unfold AxesTuple.bin
  rw [h1, numBinsList_ok hl]
  simp only [Res.ok_bind]
  have key : ∀ (ns : List Nat) (N : Nat), 0 ∈ ns → (∀ n ∈ ns, n < usizeSize) → digits N ns = .error .divZero := by
    intro ns
    induction ns with
    | nil => intro N h; simp at h
    | cons n ns ih =>
      intro N h hf
      have hfn := hf n (by simp)
      unfold digits
      rw [umul_ok (by simpa using hfn)]
      simp only [Res.ok_bind, one_mul, urem, udiv]
      by_cases hn : n = 0
      · simp [hn]
      · simp only [hn, if_false, Res.ok_bind]
        simp only [List.mem_cons, Ne.symm hn, false_or] at h
        rw [ih _ h (fun m hm => hf m (by simp [hm]))]
        rfl
  rw [key ns N hz hl.fits]
  rfl

/-! ## C24 -/

/-- **C24 (build with overflow checks).** If the number of cells does not fit in `usize`, construction panics. -/
theorem C24_overflow_panics_partial (hc : Cfg.checked = true) {item : Tup (t₀ :: t₁ :: ts)} {ns : List Nat}
    (hl : TupLawful item ns) (hbig : usizeSize ≤ ns.prod) :
    AxesTuple.fromTuple item = .error .overflow := by
  unfold AxesTuple.fromTuple
  rw [numBinsList_ok hl]
  simp only [Res.ok_bind]
  have key : ∀ (ns : List Nat) (w : Nat), w < usizeSize → usizeSize ≤ w * ns.prod →
      scanProd w ns = .error .overflow := by
    intro ns
    induction ns with
    | nil => intro w h1 h2; simp at h2; omega
    | cons n ns ih =>
      intro w h1 h2
      unfold scanProd
      by_cases h : w * n < usizeSize
      · rw [umul_ok h]
        simp only [Res.ok_bind]
        rw [ih (w * n) h (by rw [List.prod_cons, ← Nat.mul_assoc] at h2; exact h2)]
        rfl
      · unfold umul uwrap
        simp [h, hc]
  have h2 := two_le_usizeSize
  rw [key ns 1 (by omega) (by simpa using hbig)]
  rfl

/-! ## C25 -/

/-- the bins of an axis, in order, with their numbers -/
theorem mapM_bins {A : Type} [Axis A] {a : A} (l : List Nat) (h : ∀ i ∈ l, ∃ b, Axis.bin a i = .ok (some b)) :
    ∃ bs : List (Axis.Interval A), bs.length = l.length ∧
      (∀ (k i : Nat) b, l[k]? = some i → bs[k]? = some b → Axis.bin a i = .ok (some b)) ∧
      (l.mapM fun it => do
        let b ← Axis.bin a it
        expect b) = (.ok bs : Res _) ∧
      (l.mapM fun it => do
        let b ← Axis.bin a it
        let b ← expect b
        return (it, b)) = (.ok (l.zip bs) : Res _) := by
  induction l with
  | nil => exact ⟨[], rfl, by simp, rfl, rfl⟩
  | cons i l ih =>
    obtain ⟨bs, h1, h2, h3, h4⟩ := ih (fun j hj => h j (by simp [hj]))
    obtain ⟨b, hb⟩ := h i (by simp)
    refine ⟨b :: bs, by simp [h1], ?_, ?_, ?_⟩
    · intro k j b' hk hb'
      cases k with
      | zero => simp at hk hb'; subst hk; subst hb'; exact hb
      | succ k => exact h2 k j b' (by simpa using hk) (by simpa using hb')
    · rw [List.mapM_cons, hb, h3]; rfl
    · rw [List.mapM_cons, hb, h4]; rfl

/-- **C25.** On a lawful axis with `n` bins, `indices` lists `0, ..., n-1`; `bins` lists the corresponding bins, `iter` the pairs;
none of them panics. -/
theorem C25_axis_iteration {A : Type} [Axis A] {a : A} {n : Nat} (hl : LawfulAxis a n) :
    Axis.indices a = .ok (List.range n) ∧
    ∃ bs : List (Axis.Interval A), bs.length = n ∧ Axis.bins a = .ok bs ∧
      Axis.iter a = .ok ((List.range n).zip bs) ∧
      ∀ i, i < n → ∃ b, bs[i]? = some b ∧ Axis.bin a i = .ok (some b) := by
  obtain ⟨bs, h1, h2, h3, h4⟩ := mapM_bins (a := a) (List.range n)
    (fun i hi => hl.bin_some i (by simpa using hi))
  have hind : Axis.indices a = .ok (List.range n) := by
    unfold Axis.indices
    rw [hl.numBins]; rfl
  refine ⟨hind, bs, by simpa using h1, ?_, ?_, ?_⟩
  · unfold Axis.bins
    rw [hind]; exact h3
  · unfold Axis.iter
    rw [hind]; exact h4
  · intro i hi
    have hb : i < bs.length := by rw [h1]; simpa using hi
    exact ⟨bs[i], by simp, h2 i i bs[i] (by simp [hi]) (by simp)⟩

/-- `num_dim` of a tuple is its number of axes. -/
theorem C25_num_dim (a : AxesTuple t₀ t₁ ts) : Axis.numDim a = ts.length + 2 := rfl

/-! ## The library's axes are lawful -/

/-- tuples of lawful axes are lawful axes, so all results also apply to nested tuples -/
theorem C25_lawful_tuple {item : Tup (t₀ :: t₁ :: ts)} {ns : List Nat} (hl : TupLawful item ns)
    (hpos : ∀ n ∈ ns, 0 < n) (hfit : ns.prod < usizeSize) {a : AxesTuple t₀ t₁ ts}
    (ha : AxesTuple.fromTuple item = .ok a) : LawfulAxis a ns.prod := by
  obtain ⟨h1, h2⟩ := C20_index_formula hl hpos hfit ha
  refine ⟨h1, hfit, ?_, ?_⟩
  · intro c i hi
    obtain ⟨is, _, rfl, h⟩ := (h2 c i).mp hi
    exact h
  · intro i hi
    obtain ⟨_, bs, _, _, hb, _⟩ := C21_bin_numbering hl hpos hfit ha hi
    exact ⟨bs, hb⟩

/-- a one-dimensional tuple is as lawful as its axis -/
theorem C25_lawful_tuple1 {X : Type} [Axis X] {x : X} {n : Nat} (hl : LawfulAxis x n) :
    ∃ a, AxesTuple1.fromTuple x = .ok a ∧ LawfulAxis a n := by
  refine ⟨⟨x, [n]⟩, by simp [AxesTuple1.fromTuple, hl.numBins], ?_⟩
  exact ⟨hl.numBins, hl.fits, hl.index_lt, hl.bin_some⟩

theorem C25_lawful_variable {T : Type} [POrd T] [LawfulPOrd T] [StdLib] {edges : List T} {a : Variable T}
    (hnew : Variable.new edges = .ok (.ok a)) (hmem : edges.length + 1 < usizeSize) :
    LawfulAxis a (edges.length + 1) := by
  obtain ⟨h2, _, p1, ok1⟩ := Variable.new_ok hnew
  have hlen := p1.length_eq
  obtain ⟨b1, ⟨e0, _, _, b0⟩, ⟨en, _, _, bn⟩, bk, bout⟩ := C13_variable_bins hnew hmem
  refine ⟨b1, hmem, ?_, ?_⟩
  · intro c i hi
    have hi' : a.index c = .ok (some i) := hi
    by_cases hc : POrd.eq c c = true
    · obtain ⟨j, h1, hle, _⟩ := Variable.index_cmp ok1 (by omega) hc
      rw [hi'] at h1; simp at h1; omega
    · rw [Variable.index_nan ok1 (by simpa using hc)] at hi'
      simp at hi'; omega
  · intro i hi
    show ∃ b, a.bin i = .ok (some b)
    rcases Nat.eq_zero_or_pos i with rfl | hp
    · exact ⟨_, b0⟩
    · rcases Nat.lt_or_ge i edges.length with h | h
      · obtain ⟨k, rfl⟩ : ∃ k, i = k + 1 := ⟨i - 1, by omega⟩
        obtain ⟨s, e, _, _, hb⟩ := bk k h
        exact ⟨_, hb⟩
      · have : i = edges.length := by omega
        subst this
        exact ⟨_, bn⟩

theorem C25_lawful_variable_noflow {T : Type} [POrd T] [LawfulPOrd T] [StdLib] {edges : List T}
    {a : VariableNoFlow T} (hnew : VariableNoFlow.new edges = .ok (.ok a))
    (hmem : edges.length + 1 < usizeSize) : LawfulAxis a (edges.length - 1) := by
  obtain ⟨b1, bb, _⟩ := C14_variable_noflow_bins hnew hmem
  refine ⟨b1, by omega, ?_, ?_⟩
  · intro c i hi
    have hi' : a.index c = .ok (some i) := hi
    obtain ⟨j, _, _, h3, _⟩ := C14_variable_noflow_index hnew hmem c
    exact ((h3 i).mp hi').2
  · intro i hi
    obtain ⟨s, e, _, _, h⟩ := bb i (by omega)
    exact ⟨_, h⟩

theorem C25_lawful_variable_cyclic {T : Type} [RNum T] [LawfulPOrd T] [StdLib] {edges : List T}
    {a : VariableCyclic T} (hnew : VariableCyclic.new edges = .ok (.ok a))
    (hmem : edges.length + 1 < usizeSize) : LawfulAxis a (edges.length - 1) := by
  have hl := C25_lawful_variable_noflow (VariableCyclic.new_ok hnew) hmem
  refine ⟨hl.numBins, hl.fits, ?_, hl.bin_some⟩
  intro c i hi
  have hi' : a.index c = .ok (some i) := hi
  unfold VariableCyclic.index at hi'
  rw [Res.bind_eq_ok] at hi'
  obtain ⟨hi₁, _, hi'⟩ := hi'
  rw [Res.bind_eq_ok] at hi'
  obtain ⟨lo₁, _, hi'⟩ := hi'
  rw [Res.bind_eq_ok] at hi'
  obtain ⟨x, _, hi'⟩ := hi'
  exact hl.index_lt x i hi'

theorem C25_lawful_category {T : Type} [DecidableEq T] (values : List T)
    (hmem : values.length + 1 < usizeSize) : LawfulAxis (Category.new values) (values.length + 1) := by
  obtain ⟨h1, h2, h3, _⟩ := C16_category_bins values hmem
  refine ⟨h1, hmem, ?_, ?_⟩
  · intro v i hi
    obtain ⟨j, hj, hlt, _⟩ := C17_category_repeated values hmem v
    have hi' : (Category.new values).index v = .ok (some i) := hi
    rw [hi'] at hj
    simp at hj; omega
  · intro i hi
    rcases Nat.lt_or_ge i values.length with h | h
    · exact ⟨_, h2 i values[i] (by simp [h])⟩
    · have : i = values.length := by omega
      subst this
      exact ⟨_, h3⟩

theorem C25_lawful_category_noflow {T : Type} [DecidableEq T] (values : List T)
    (hmem : values.length + 1 < usizeSize) : LawfulAxis (CategoryNoFlow.new values) values.length := by
  obtain ⟨h1, h2, _⟩ := C18_category_noflow_bins values hmem
  refine ⟨h1, by omega, ?_, ?_⟩
  · intro v i hi
    have hi' : (CategoryNoFlow.new values).index v = .ok (some i) := hi
    obtain ⟨h4, h5⟩ := C18_category_noflow_index values hmem v
    by_cases hv : v ∈ values
    · obtain ⟨_, j, hj, hlt⟩ := h4 hv
      rw [hi'] at hj
      simp at hj; omega
    · rw [h5 hv] at hi'; simp at hi'
  · intro i hi
    exact ⟨_, h2 i values[i] (by simp [hi])⟩

/-- whatever makes a `Uniform` axis lawful makes the corresponding axis without flow bins lawful -/
theorem C25_lawful_uniform_noflow {T : Type} [RNum T] {u : Uniform T} (hl : LawfulAxis u (u.num + 2)) :
    LawfulAxis (UniformNoFlow.mk u) u.num := by
  have hf := hl.fits
  refine ⟨UniformNoFlow.numBins_eq hf, by omega, ?_, ?_⟩
  · intro c i hi
    have hi' : UniformNoFlow.index ⟨u⟩ c = .ok (some i) := hi
    cases h : u.index c with
    | error p => unfold UniformNoFlow.index at hi'; rw [h] at hi'; simp at hi'
    | ok o =>
      cases o with
      | none => unfold UniformNoFlow.index at hi'; rw [h] at hi'; simp at hi'
      | some j =>
        have hlt : j < u.num + 2 := hl.index_lt c j h
        obtain ⟨_, h3, _⟩ := C07_noflow_index u hf c j h (by omega)
        exact ((h3 i).mp hi').2
  · intro i hi
    have h1 := (C07_noflow_bin u i (by omega) (by omega)).1 hi
    obtain ⟨b, hb⟩ := hl.bin_some (i + 1) (by omega)
    exact ⟨b, h1.trans hb⟩

/-- and the cyclic one -/
theorem C25_lawful_uniform_cyclic {T : Type} [RNum T] {u : Uniform T} (hl : LawfulAxis u (u.num + 2)) :
    LawfulAxis (UniformCyclic.mk (UniformNoFlow.mk u)) u.num := by
  have hn := C25_lawful_uniform_noflow hl
  refine ⟨hn.numBins, hn.fits, ?_, hn.bin_some⟩
  intro c i hi
  have hi' : UniformCyclic.index ⟨⟨u⟩⟩ c = .ok (some i) := hi
  unfold UniformCyclic.index at hi'
  rw [Res.bind_eq_ok] at hi'
  obtain ⟨x, _, hi'⟩ := hi'
  exact hn.index_lt x i hi'

section
variable {τ : IntTy}
/-- integer uniform axes are lawful when `num * num * step` fits the coordinate type (see C02) -/
theorem C25_lawful_uniform_int {num : Nat} {low step : MInt τ} {a : Uniform (MInt τ)}
    (hnew : Uniform.withStepSize num low step = .ok (.ok a))
    (hfit : Cfg.checked = false →
      (num : ℤ) * step.val ≤ τ.max ∧ low.val + num * step.val ≤ τ.max)
    (hnum : num + 2 < usizeSize) (hbin : (num : ℤ) * (num * step.val) ≤ τ.max) : LawfulAxis a (num + 2) := by
  obtain ⟨h1, h2, ⟨hi, _, h3⟩, h4, _⟩ := C02_uniform_int_bins_partial hnew hfit hnum
  obtain ⟨_, _, hs, _⟩ := Uniform.withStepSize_ok hnew hfit
  refine ⟨h1, hnum, ?_, ?_⟩
  · intro c i hi
    have hi' : a.index c = .ok (some i) := hi
    obtain ⟨j, hj, hle, _⟩ := C01_uniform_int_index hnew hfit (by omega) c
    rw [hi'] at hj
    simp at hj; omega
  · intro i hi
    show ∃ b, a.bin i = .ok (some b)
    rcases Nat.eq_zero_or_pos i with rfl | hp
    · exact ⟨_, h2⟩
    · rcases Nat.lt_or_ge i (num + 1) with h | h
      · obtain ⟨k, rfl⟩ : ∃ k, i = k + 1 := ⟨i - 1, by omega⟩
        have hle : ((k : ℤ) + 1) * (num * step.val) ≤ num * (num * step.val) := by
          apply mul_le_mul_of_nonneg_right
          · omega
          · positivity
        obtain ⟨s, e, _, _, hb⟩ := h4 k (by omega) (by omega)
        exact ⟨_, hb⟩
      · have : i = num + 1 := by omega
        subst this
        exact ⟨_, h3⟩
end
end

section
attribute [local instance] dbg64

/-- a two-axis example: 2 categories + overflow, times 2 categories -/
def exItem : Tup [⟨Category String, inferInstance⟩, ⟨CategoryNoFlow Nat, inferInstance⟩] :=
  (Category.new ["a", "b"], CategoryNoFlow.new [10, 20], ())

/-- non-vacuity of C20-C22, C25: the hypotheses hold for the example -/
example : TupLawful exItem [3, 2] ∧ (∀ n ∈ [3, 2], 0 < n) ∧ [3, 2].prod < usizeSize ∧
    ∃ a, AxesTuple.fromTuple exItem = .ok a ∧ a.index ("b", (20 : Nat), ()) = .ok (some 4) ∧
      a.index ("z", (30 : Nat), ()) = .ok none := by
  refine ⟨⟨3, [2], rfl, C25_lawful_category _ (by decide), 2, [], rfl,
    C25_lawful_category_noflow _ (by decide), rfl⟩, by decide, by decide, ?_⟩
  exact ⟨⟨exItem, [3, 6]⟩, rfl, by decide, by decide⟩

/-- C23 on the example: the tuple has 6 bins, but `bin(6)` is the bin of 0. -/
theorem C23_counterexample : ∃ a, AxesTuple.fromTuple exItem = .ok a ∧ a.numBins = .ok 6 ∧
    a.bin 6 = .ok (some (.Bin "a", .Bin 10, ())) :=
  ⟨⟨exItem, [3, 6]⟩, rfl, by decide, by rfl⟩

/-- C23 for single axes has one exception: with overflow checks, `bin(usize::MAX)` of the axes without flow bins panics
instead of returning `None` (they add one to the argument). -/
theorem C23_counterexample_noflow : ∃ a, @VariableNoFlow.new (MInt .i32) _ stdNew [.lit 0, .lit 1] = .ok (.ok a) ∧
    VariableNoFlow.bin a (2 ^ 64 - 1) = .error .overflow :=
  ⟨⟨⟨[.lit 0, .lit 1]⟩⟩, by decide, by decide⟩

/-- an empty `CategoryNoFlow` in a tuple (C23_zero_bins_panics) -/
example : ∃ a, AxesTuple.fromTuple (t₀ := ⟨CategoryNoFlow Nat, inferInstance⟩)
      (t₁ := ⟨Category Nat, inferInstance⟩) (ts := []) (CategoryNoFlow.new [], Category.new [1], ()) = .ok a ∧
    a.numBins = .ok 0 ∧ a.bin 0 = .error .divZero :=
  ⟨⟨(CategoryNoFlow.new [], Category.new [1], ()), [0, 0]⟩, rfl, rfl, rfl⟩
end

section
attribute [local instance] rel64

/-- a uniform axis with 2^33 bins -/
def bigAxis : UniformNoFlow (MInt .i64) := ⟨⟨2 ^ 33, .lit 0, .lit (2 ^ 33), .lit 1⟩⟩

/-- **C24 is false in a release build**: two axes of 2^33 bins each are accepted, `num_bins()` wraps to 0 (a dense
histogram on them has no bins at all), and different coordinates collide. -/
theorem C24_counterexample_release :
    UniformNoFlow.withStepSize (2 ^ 33) (.lit 0) (.lit 1) = .ok (.ok bigAxis) ∧
    ∃ a, AxesTuple.fromTuple (t₀ := ⟨UniformNoFlow (MInt .i64), inferInstance⟩)
        (t₁ := ⟨UniformNoFlow (MInt .i64), inferInstance⟩) (ts := []) (bigAxis, bigAxis, ()) = .ok a ∧
      a.numBins = .ok 0 ∧
      a.index (.lit 7, .lit 0, ()) = .ok (some 7) ∧ a.index (.lit 7, .lit (2 ^ 31), ()) = .ok (some 7) :=
  ⟨by decide, ⟨(bigAxis, bigAxis, ()), [2 ^ 33, 0]⟩, by rfl, by decide, by decide, by decide⟩
end
end NdHist
