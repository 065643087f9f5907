import Verif.Props.FloatTextPrec
import Verif.Examples.Rest
import Verif.Examples.Display
/-! # Examples: C93 -/
namespace NdHist.Examples

-- the texts that std prints
example : Flt.text.fmt none (f64 (1 / 3)) = "0.3333333333333333" := by decide +kernel
example : Flt.text.fmt none (f64 (-100000000000000000000000)) = "-100000000000000000000000" := by decide +kernel
example : Flt.text.fmt (some 3) (f64 (1 / 16)) = "0.062" := by decide +kernel
example : Flt.text.fmt (some 2) (Flt.zero true : F64) = "-0.00" := by decide +kernel

example : readFloat (Flt.text.fmt none (f64 0.1)) = f64 0.1 := C93_reads_back _
example (x y : F64) (h : x ≠ y) : Flt.text.fmt none x ≠ Flt.text.fmt none y := fun h' => h ((@PlainText.inj _ Flt.text none C93_plain_text) x y h')

theorem rep_tenth : FFmt.f64.Rep (3602879701896397 * pow2 (-55)) := FFmt.f64.rep_of_repU ⟨3602879701896397, -55, by norm_num, by decide, by decide⟩ (by decide +kernel)
-- 0.1 is not a multiple of 1, and 0.1 is the nearest multiple of 0.1
example : ∃ (l : List Char) (d : Nat) (e : Int), Flt.text.fmt none (.fin false _ rep_tenth) = String.ofList ([] ++ l) ∧ readDecimal l = d * (10 : ℚ) ^ e ∧ -1 ≤ e := by
  obtain ⟨l, d, e, h1, h2, h3⟩ := C93_shortest false _ rep_tenth (by decide +kernel)
  exact ⟨l, d, e, h1, h2, (h3 1 (-1) (by positivity) (by
    have e : ((1 : Nat) : ℚ) * 10 ^ (-1 : Int) = 1 / 10 := by norm_num
    have key : ∀ (q : ℚ) (hq : 0 ≤ q), q = 1 / 10 → Flt.round false q hq = .fin false _ rep_tenth := by
      rintro q hq rfl
      show Flt.round false (1 / 10) (by decide +kernel) = _
      decide +kernel
    exact key _ _ e)).1⟩
example : Flt.text.fmt none (f64 ((-9007199254740992 : ℤ) : ℚ)) = "-9007199254740992" := C93_whole _ (by decide)
-- 0.1 with two decimals: within 0.005
example : ∃ (l : List Char) (n : Nat), Flt.text.fmt (some 2) (.fin true _ rep_tenth) = String.ofList (['-'] ++ l) ∧ readDecimal l = (n : ℚ) / 10 ^ 2 ∧
    ((l.dropWhile (· ≠ '.')).drop 1).length = 2 ∧ ('.' ∈ l ↔ 2 ≠ 0) ∧
    |(n : ℚ) / 10 ^ 2 - 3602879701896397 * pow2 (-55)| ≤ 1 / (2 * 10 ^ 2) ∧ (|(n : ℚ) / 10 ^ 2 - 3602879701896397 * pow2 (-55)| = 1 / (2 * 10 ^ 2) → Even n) :=
  C93_precision 2 true _ rep_tenth

section
attribute [local instance] Flt.text dbg64 stdNew
local instance : Disp String := ⟨fun _ s => s⟩
local instance : Disp (@Axis.Interval (CategoryNoFlow String) dbg64 _) := inferInstanceAs (Disp (SingleValueBinInterval String))

example : Disp.fmt none (.Overflow (f64 1) : BinInterval F64) = Disp.fmt none (.Bin (f64 1) (.inf false) : BinInterval F64) :=
  (C93_labels _ _).2 (.inr ⟨_, .inl ⟨rfl, rfl⟩⟩)
example : Disp.fmt none (.Bin (f64 0) (f64 0.1) : BinInterval F64) ≠ Disp.fmt none (.Bin (f64 0) (f64 0.2) : BinInterval F64) := by
  rw [Ne, C93_labels]; rintro (h | ⟨s, ⟨h, -⟩ | ⟨-, h⟩⟩)
  · exact absurd h (by decide +kernel)
  · cases h
  · cases h
-- 0.001 and 0.004 are printed the same with two decimals
example : (BinInterval.Bin (f64 0.001) (f64 1)).EndsNear (1 / 10 ^ 2) (.Bin (f64 0.004) (f64 1)) :=
  C93_label_precision 2 (b := .Bin (f64 0.001) (f64 1)) (b' := .Bin (f64 0.004) (f64 1)) ⟨by decide +kernel, by decide +kernel⟩ ⟨by decide +kernel, by decide +kernel⟩ (by decide +kernel)
-- the axis `Uniform::new(10, 0.1, 1.3)`
example (b b' : BinInterval F64) (h : exTen.bin 11 = .ok (some b)) (h' : exTen.bin 3 = .ok (some b')) : Disp.fmt (some 2) b ≠ Disp.fmt (some 2) b' := by
  rw [Ne, C93_uniform_precision 2 exTen_new (by decide +kernel) (by decide +kernel) (by decide) (by decide) (by decide +kernel) (by decide +kernel) (by decide +kernel) h h']
  decide
def exVText : Variable F64 := ⟨[f64 0, f64 0.5, f64 3]⟩
theorem exVText_new : Variable.new [f64 0.5, f64 0, f64 3] = .ok (.ok exVText) := by decide +kernel
example (b b' : BinInterval F64) (h : exVText.bin 1 = .ok (some b)) (h' : exVText.bin 2 = .ok (some b')) : Disp.fmt (some 1) b ≠ Disp.fmt (some 1) b' := by
  rw [Ne, C93_variable_precision 1 exVText_new (by decide) (by decide +kernel) (by decide +kernel) h h']
  decide
-- no variable axis prints like a uniform one
example {s t : String} (v : Variable F64) (hv : v.binEdges.length < 100) (h : v.display = .ok t) (h' : exTen.display = s) : s ≠ t := by
  rw [Ne, C93_axis_text C93_plain_text (a := .uniform exTen) (b := .variable v) (show exTen.num + 2 < 2 ^ 64 by decide +kernel) (by show v.binEdges.length - 1 + 2 < 2 ^ 64; omega) (congrArg Except.ok h') h]
  intro hh; exact absurd (show "Uniform" = "Variable" from hh.2.2.2) (by decide)
example {l h : F64} {a : Uniform F64} (ha : Uniform.new 10 l h = .ok (.ok a)) (hd : a.display = exTen.display) : a = exTen :=
  (C93_uniform_text ha exTen_new).1 hd
example : ∃ rows, exWhole.display i32f (fun _ => true) none = .ok ("VecHistogram1D(2 bins, sum=-4)" :: rows, true) ∧ rows.length = 2 :=
  C93_header rfl (h := exWhole) (n := 2) ⟨exAxis_lawful, rfl⟩ i32f none (fun x => x.val) (fun _ _ => rfl) (by decide)
example (o : exWholeS.values.Order) : HashHistogram.display i32f exWholeS.axes (exWholeS.valuesIter o) = .ok "HashHistogram1D(2 bins, sum=2)" :=
  C93_sparse_header (h := exWholeS) (n := 2) ⟨exAxis_lawful, by unfold HMap.NodupKeys; decide, by decide⟩ i32f o (fun x => x.val) (fun _ _ => rfl) (by decide)
end
end NdHist.Examples
