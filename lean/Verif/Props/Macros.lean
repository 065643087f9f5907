import Verif.Model.Macros
import Verif.Props.Content
import Verif.Props.Checked
/-!
# C62: histograms made by the macros, from construction to reading
-/
set_option linter.unusedSectionVars false
namespace NdHist
open scoped Classical
section
variable [cfg : Cfg] {V : Type} [RDefault V]

/-- **C62 (one axis, dense).** `ndhistogram!(axis; V)` never panics. Fill the histogram with anything, panicking fills included, and iterate: the bins of the
axis come in order, and the value of each is the default value filled with the data whose coordinate its interval contains. -/
theorem C62_one_axis {X : Type} [Axis X] {x : X} {n : Nat} {cov dom} (hf : FaithfulAxis x n cov dom) (calls : List (Call V (Axis.Coordinate X)))
    (hd : ∀ call ∈ calls, dom call.coord) :
    ∃ h : VecHistogram (AxesTuple1 X) V, ndhistogram1 V x = .ok h ∧ Axis.numBins h.axes = .ok n ∧ Axis.numDim h.axes = 1 ∧
      ∃ items, (h.callAllCaught calls).iter = .ok items ∧ items.length = n ∧
        ∀ i it, items[i]? = some it → it.index = i ∧ Axis.bin x i = .ok (some it.bin) ∧
          it.value = filledWith (calls.filter fun call => cov it.bin call.coord) RDefault.dflt := by
  obtain ⟨a, ha, hl⟩ := C25_lawful_tuple1 hf.lawful
  have hfa := C51_tuple1 hf ha
  obtain ⟨h, hnew, ok, hax, -⟩ := C26_new (V := V) hl
  have hx : a.axis = x := by
    simp [AxesTuple1.fromTuple, hf.lawful.numBins] at ha
    rw [← ha]
  refine ⟨h, ?_, by rw [hax]; exact hl.numBins, rfl, ?_⟩
  · unfold ndhistogram1; rw [ha]; exact hnew
  · obtain ⟨items, h1, h2, h3⟩ := C51_dense hfa hnew calls hd
    refine ⟨items, h1, h2, fun i it hi => ?_⟩
    obtain ⟨e1, e2, e3⟩ := h3 i it hi
    exact ⟨e1, by rw [← hx]; exact e2, e3⟩

/-- **C62 (one axis, sparse).** The same for `sparsehistogram!(axis; V)`: exactly the bins that received something appear, in some order. -/
theorem C62_one_axis_sparse {X : Type} [Axis X] {x : X} {n : Nat} {cov dom} (hf : FaithfulAxis x n cov dom) (calls : List (Call V (Axis.Coordinate X)))
    (hd : ∀ call ∈ calls, dom call.coord) :
    ∃ h : HashHistogram (AxesTuple1 X) V, sparsehistogram1 V x = .ok h ∧
      ∀ o : (h.callAllCaught calls).values.Order, ∃ items, (h.callAllCaught calls).iter o = .ok items ∧ (items.map (·.index)).Nodup ∧
        (∀ it ∈ items, it.index < n ∧ Axis.bin x it.index = .ok (some it.bin) ∧ (∃ call ∈ calls, cov it.bin call.coord) ∧
          it.value = filledWith (calls.filter fun call => cov it.bin call.coord) RDefault.dflt) ∧
        ∀ i b, i < n → Axis.bin x i = .ok (some b) → (∃ call ∈ calls, cov b call.coord) → ∃ it ∈ items, it.index = i ∧ it.bin = b := by
  obtain ⟨a, ha, hl⟩ := C25_lawful_tuple1 hf.lawful
  have hfa := C51_tuple1 hf ha
  have hx : a.axis = x := by
    simp [AxesTuple1.fromTuple, hf.lawful.numBins] at ha
    rw [← ha]
  refine ⟨HashHistogram.new a, by unfold sparsehistogram1; rw [ha]; rfl, fun o => ?_⟩
  subst hx
  exact C51_sparse hfa calls hd o

variable {t₀ t₁ : AxTy} {ts : List AxTy} {item : Tup (t₀ :: t₁ :: ts)} {ns : List Nat} {cov : TupCovers (t₀ :: t₁ :: ts)} {dom : TupDom (t₀ :: t₁ :: ts)}

/-- **C62 (several axes, dense).** `ndhistogram!(x, y, ...; V)` never panics if the number of cells is a `usize`. Fill the histogram with anything, panicking
fills included, and iterate: there is one item for each cell of the grid, numbered with the first axis fastest, it reports the intervals of the cell along each
axis, and its value is the default value filled with the data whose coordinates lie in these intervals. -/
theorem C62_axes (hf : TupFaithful item ns cov dom) (hpos : ∀ n ∈ ns, 0 < n) (hfit : ns.prod < usizeSize)
    (calls : List (Call V (Coords (t₀ :: t₁ :: ts)))) (hd : ∀ call ∈ calls, InDom dom call.coord) :
    ∃ h : VecHistogram (AxesTuple t₀ t₁ ts) V, ndhistogram V item = .ok h ∧ Axis.numBins h.axes = .ok ns.prod ∧ Axis.numDim h.axes = ns.length ∧
      ∃ items, (h.callAllCaught calls).iter = .ok items ∧ items.length = ns.prod ∧
        ∀ is, InGrid ns is → ∃ it b, items[cellNumber 1 ns is]? = some it ∧ it.index = cellNumber 1 ns is ∧ it.bin = b ∧ BinsOf item is b ∧
          it.value = filledWith (calls.filter fun call => CoversAll cov b call.coord) RDefault.dflt := by
  have hl := hf.lawful
  obtain ⟨a, ha, hax, -⟩ := C20_construct hl hpos hfit
  have hfa := C51_tuple hf hpos hfit ha
  obtain ⟨h, hnew, ok, hhx, -⟩ := C26_new (V := V) hfa.lawful
  refine ⟨h, by unfold ndhistogram; rw [ha]; exact hnew, by rw [hhx]; exact hfa.lawful.numBins, hl.length.symm, ?_⟩
  obtain ⟨items, h1, h2, h3⟩ := C51_dense hfa hnew calls hd
  refine ⟨items, h1, h2, fun is hg => ?_⟩
  have hlt := cellNumber_lt hg
  have hget : items[cellNumber 1 ns is]? = some (items[cellNumber 1 ns is]'(by omega)) := List.getElem?_eq_getElem _
  obtain ⟨e1, e2, e3⟩ := h3 _ _ hget
  obtain ⟨is', bs, hg', hc, hb, hbs, hu⟩ := C21_bin_numbering hl hpos hfit ha hlt
  have : is = is' := hu is hg rfl
  subst this
  refine ⟨_, _, hget, e1, rfl, ?_, e3⟩
  have e4 : a.bin (cellNumber 1 ns is) = .ok (some (items[cellNumber 1 ns is]'(by omega)).bin) := e2
  rw [hb] at e4
  injection e4 with e4; injection e4 with e4
  rw [← e4]; exact hbs

/-- **C62 (several axes, sparse).** -/
theorem C62_axes_sparse (hf : TupFaithful item ns cov dom) (hpos : ∀ n ∈ ns, 0 < n) (hfit : ns.prod < usizeSize)
    (calls : List (Call V (Coords (t₀ :: t₁ :: ts)))) (hd : ∀ call ∈ calls, InDom dom call.coord) :
    ∃ h : HashHistogram (AxesTuple t₀ t₁ ts) V, sparsehistogram V item = .ok h ∧
      ∀ o : (h.callAllCaught calls).values.Order, ∃ items, (h.callAllCaught calls).iter o = .ok items ∧ (items.map (·.index)).Nodup ∧
        (∀ it ∈ items, ∃ is, InGrid ns is ∧ it.index = cellNumber 1 ns is ∧ BinsOf item is it.bin ∧ (∃ call ∈ calls, CoversAll cov it.bin call.coord) ∧
          it.value = filledWith (calls.filter fun call => CoversAll cov it.bin call.coord) RDefault.dflt) ∧
        ∀ is b, InGrid ns is → BinsOf item is b → (∃ call ∈ calls, CoversAll cov b call.coord) → ∃ it ∈ items, it.index = cellNumber 1 ns is ∧ it.bin = b := by
  have hl := hf.lawful
  obtain ⟨a, ha, hax, -⟩ := C20_construct hl hpos hfit
  have hfa := C51_tuple hf hpos hfit ha
  refine ⟨HashHistogram.new a, by unfold sparsehistogram; rw [ha]; rfl, fun o => ?_⟩
  obtain ⟨items, h1, h2, h3, h4⟩ := C51_sparse hfa calls hd o
  refine ⟨items, h1, h2, fun it hit => ?_, fun is b hg hb hcov => ?_⟩
  · obtain ⟨hlt, hb, hc, hv⟩ := h3 it hit
    obtain ⟨is, bs, hg, hc', hb', hbs, -⟩ := C21_bin_numbering hl hpos hfit ha hlt
    have e4 : a.bin it.index = .ok (some it.bin) := hb
    rw [hb'] at e4
    injection e4 with e4; injection e4 with e4
    exact ⟨is, hg, hc'.symm, e4 ▸ hbs, hc, hv⟩
  · have hlt := cellNumber_lt hg
    obtain ⟨is', bs, hg', hc', hb', hbs, hu⟩ := C21_bin_numbering hl hpos hfit ha hlt
    have : is = is' := hu is hg rfl
    subst this
    have : b = bs := hb.unique hbs
    subst this
    exact h4 _ _ hlt hb' hcov

/-- **C62 (too many cells).** With overflow checks both macros panic if the number of cells is not a `usize`, the sparse one too although it would store nothing. -/
theorem C62_too_many_cells (hc : Cfg.checked = true) (hl : TupLawful item ns) (hpos : ∀ n ∈ ns, 0 < n) :
    ((∃ p, ndhistogram V item = .error p) ↔ usizeSize ≤ ns.prod) ∧ ((∃ p, sparsehistogram V item = .error p) ↔ usizeSize ≤ ns.prod) := by
  rcases C59_axes_tuple hc hl hpos with ⟨h1, h2⟩ | ⟨h1, a, ha, hla⟩
  · have e1 : ndhistogram V item = .error .overflow := by unfold ndhistogram; rw [h1]; rfl
    have e2 : sparsehistogram V item = .error .overflow := by unfold sparsehistogram; rw [h1]; rfl
    exact ⟨⟨fun _ => h2, fun _ => ⟨_, e1⟩⟩, ⟨fun _ => h2, fun _ => ⟨_, e2⟩⟩⟩
  · obtain ⟨h, hnew, -, -⟩ := C26_new (V := V) hla
    have e1 : ndhistogram V item = .ok h := by unfold ndhistogram; rw [ha]; exact hnew
    have e2 : sparsehistogram V item = .ok (HashHistogram.new a) := by unfold sparsehistogram; rw [ha]; rfl
    constructor
    · exact ⟨fun ⟨p, hp⟩ => (by rw [e1] at hp; injection hp), fun h => by omega⟩
    · exact ⟨fun ⟨p, hp⟩ => (by rw [e2] at hp; injection hp), fun h => by omega⟩
end

section
attribute [local instance] dbg64

/-- `ndhistogram!(Uniform::with_step_size(10, 0, 5)?, CategoryNoFlow::new(["a", "b"]))` filled with three coordinates, of which `("c")` has no bin:
bin 2 + 12·1 holds one entry -/
example : ∃ (h : VecHistogram (AxesTuple ⟨Uniform (MInt .i32), inferInstance⟩ ⟨CategoryNoFlow String, inferInstance⟩ []) F64)
      (items : List (Item (BinInterval (MInt .i32) × SingleValueBinInterval String × Unit) F64)),
    ndhistogram F64 (t₀ := ⟨Uniform (MInt .i32), inferInstance⟩) (t₁ := ⟨CategoryNoFlow String, inferInstance⟩) (ts := []) (exUni, exAxis, ()) = .ok h ∧
    (h.callAllCaught [.fill (.lit 7, "b", ()), .fill (.lit 7, "c", ()), .fill (.lit 70, "a", ())]).iter = .ok items ∧ items.length = 24 ∧
    items[14]? = some ⟨14, (.Bin (.lit 5) (.lit 10), .Bin "b", ()), f64 1⟩ := by
  refine ⟨_, _, rfl, rfl, rfl, ?_⟩
  decide +kernel

/-- the hypotheses of `C62_axes` hold for it -/
example : TupFaithful (ts := [⟨Uniform (MInt .i32), inferInstance⟩, ⟨CategoryNoFlow String, inferInstance⟩]) (exUni, exAxis, ()) [12, 2]
    (BinInterval.Covers (T := MInt .i32), SingleValueBinInterval.Covers ["a", "b"], ()) (fun _ => True, fun _ => True, ()) ∧
    (∀ n ∈ [12, 2], 0 < n) ∧ [12, 2].prod < usizeSize :=
  ⟨⟨12, [2], rfl, exUni_faithful, 2, [], rfl, C51_category_noflow ["a", "b"] (by decide) (by decide), rfl⟩, by decide, by decide⟩
end
end NdHist
