import Verif.Model.Display
import Verif.Model.Default
import Verif.Props.Access
/-!
# C49: printing axes and bins
-/
namespace NdHist
open POrd RNum

/-- the documented text of a numeric axis -/
def axisLine (bins : Nat) (low high cls : String) : String :=
  "Axis{# bins=" ++ toString bins ++ ", range=[" ++ low ++ ", " ++ high ++ "), class=" ++ cls ++ "}"

section
variable [cfg : Cfg] {T : Type} [Disp T]

/-- C49: a uniform axis prints the number of its bins without under- and overflow, and its range. -/
theorem C49_uniform [RNum T] (a : Uniform T) {n : Nat} (hn : a.numBins = .ok (n + 2)) (hf : a.num + 2 < usizeSize) :
    a.display = axisLine n (Disp.fmt none a.low) (Disp.fmt none a.high) "Uniform" := by
  rw [Uniform.numBins, uadd_ok hf] at hn
  injection hn with hn
  obtain rfl : n = a.num := by omega
  rfl

/-- C49: uniform axes without flow bins print the number of their bins and their range. -/
theorem C49_uniform_noflow [RNum T] (a : UniformNoFlow T) {n : Nat} (hn : a.numBins = .ok n) :
    a.display = .ok (axisLine n (Disp.fmt none a.low) (Disp.fmt none a.high) "UniformNoFlow") ∧
    (UniformCyclic.mk a).display =
      .ok (axisLine n (Disp.fmt none (UniformCyclic.mk a).low) (Disp.fmt none (UniformCyclic.mk a).high) "UniformCyclic") := by
  unfold UniformNoFlow.display UniformCyclic.display
  rw [hn]
  exact ⟨rfl, rfl⟩

/-- C49: an axis made by `Variable::new` never panics when printed and shows one bin less than it has edges, and its range. The same
axis without flow bins, and the cyclic one, show the same. -/
theorem C49_variable [POrd T] [LawfulPOrd T] [StdLib] {edges : List T} {a : Variable T} (hnew : Variable.new edges = .ok (.ok a)) (hmem : edges.length + 1 < usizeSize) :
    ∃ lo hi, a.low = .ok lo ∧ a.high = .ok hi ∧
      a.display = .ok (axisLine (edges.length - 1) (Disp.fmt none lo) (Disp.fmt none hi) "Variable") ∧
      (VariableNoFlow.mk a).display = .ok (axisLine (edges.length - 1) (Disp.fmt none lo) (Disp.fmt none hi) "VariableNoFlow") ∧
      (VariableCyclic.mk (VariableNoFlow.mk a)).display = .ok (axisLine (edges.length - 1) (Disp.fmt none lo) (Disp.fmt none hi) "VariableCyclic") := by
  obtain ⟨h2, _, hp, _⟩ := Variable.new_ok hnew
  have hlen := hp.length_eq
  obtain ⟨lo, hlo⟩ : ∃ lo, a.binEdges.head? = some lo := by
    cases h : a.binEdges with
    | nil => rw [h] at hlen; simp at hlen; omega
    | cons x xs => exact ⟨x, rfl⟩
  obtain ⟨hi, hhi⟩ : ∃ hi, a.binEdges.getLast? = some hi := by
    cases h : a.binEdges.getLast? with
    | none => rw [List.getLast?_eq_none_iff] at h; rw [h] at hlen; simp at hlen; omega
    | some x => exact ⟨x, rfl⟩
  have e1 : a.low = .ok lo := by rw [Variable.low, hlo]; rfl
  have e2 : a.high = .ok hi := by rw [Variable.high, hhi]; rfl
  have e3 : usub a.binEdges.length 1 = .ok (edges.length - 1) := by rw [usub_ok (by omega), hlen]
  have e4 : (VariableNoFlow.mk a).numBins = .ok (edges.length - 1) := by
    unfold VariableNoFlow.numBins Variable.numBins
    rw [hlen, uadd_ok hmem]
    show usub _ 2 = _
    rw [usub_ok (by omega)]; rfl
  refine ⟨lo, hi, e1, e2, ?_, ?_, ?_⟩
  · unfold Variable.display; rw [e1, e2, e3]; rfl
  · unfold VariableNoFlow.display; rw [e4, e1, e2]; rfl
  · have e5 : (VariableNoFlow.mk a).low = .ok lo := e1
    have e6 : (VariableNoFlow.mk a).high = .ok hi := e2
    unfold VariableCyclic.display; rw [e4, e5, e6]; rfl

/-- C49: a category axis prints its first ten bins in order, the overflow bin included when it is among them. -/
theorem C49_category [DecidableEq T] (values : List T) (hmem : values.length + 1 < usizeSize) :
    (Category.new values).display =
      .ok ("{" ++ ", ".intercalate ((values.map (fun v => "{" ++ Disp.fmt none v ++ "}") ++ ["{overflow}"]).take 10) ++ "}") := by
  obtain ⟨h1, h2, h3, _⟩ := C16_category_bins values hmem
  unfold Category.display Axis.indices
  have h1' : Axis.numBins (Category.new values) = .ok (values.length + 1) := h1
  rw [h1']
  simp only [Res.ok_bind, pure, Except.pure]
  obtain ⟨l, hl, hlen, hget⟩ := mapM_range (fun it => (do
    let b ← (Category.new values).bin it
    let b ← expect b
    .ok (Disp.fmt none b) : Res String)) (min 10 (values.length + 1)) (by
      intro i hi
      by_cases h : i < values.length
      · rw [h2 i values[i] (by simp [h])]; exact ⟨_, rfl⟩
      · obtain rfl : i = values.length := by omega
        rw [h3]; exact ⟨_, rfl⟩)
  rw [List.take_range, hl]
  simp only [Res.ok_bind]
  congr 4
  apply List.ext_getElem?
  intro i
  by_cases hi : i < min 10 (values.length + 1)
  · obtain ⟨b, hb, hf⟩ := hget i hi
    rw [hb, List.getElem?_take]
    rw [if_pos (by omega)]
    by_cases h : i < values.length
    · rw [h2 i values[i] (by simp [h])] at hf
      simp only [Res.ok_bind, expect] at hf
      injection hf with hf
      rw [List.getElem?_append_left (by simpa using h), ← hf]
      simp [h]; rfl
    · obtain rfl : i = values.length := by omega
      rw [h3] at hf
      simp only [Res.ok_bind, expect] at hf
      injection hf with hf
      rw [List.getElem?_append_right (by simp), ← hf]
      simp; rfl
  · rw [List.getElem?_eq_none (by omega), List.getElem?_eq_none]
    simp; omega

/-- C49 is false of the category axis without overflow: it prints an overflow bin it does not have. -/
theorem C49_counterexample_category_noflow [DecidableEq T] (values : List T) (hmem : values.length < 10) :
    (CategoryNoFlow.new values).display =
      .ok ("{" ++ ", ".intercalate (values.map (fun v => "{" ++ Disp.fmt none v ++ "}") ++ ["{overflow}"]) ++ "}") ∧
    ∀ i, (CategoryNoFlow.new values).bin i ≠ .ok (some .Overflow) := by
  have hu : 2 ^ 16 ≤ usizeSize := Nat.pow_le_pow_right (by norm_num) cfg.bits_ge
  constructor
  · have := C49_category values (by omega)
    rw [List.take_of_length_le (by simp; omega)] at this
    exact this
  · intro i
    obtain ⟨_, h2, h3⟩ := C18_category_noflow_bins values (by omega)
    by_cases h : i < values.length
    · rw [h2 i values[i] (by simp [h])]; simp
    · rw [h3 i (by omega)]; simp

/-- C49 is false of the default variable axis: printing it panics. -/
theorem C49_counterexample_default [POrd T] [StdLib] : ∃ p, (RDefault.dflt : Variable T).display = .error p := by
  unfold Variable.display
  have : (RDefault.dflt : Variable T).binEdges.length = 0 := rfl
  rw [this]
  have hl : (RDefault.dflt : Variable T).low = .error .expectNone := rfl
  rw [hl]
  cases usub 0 1 with
  | error p => exact ⟨p, rfl⟩
  | ok n => exact ⟨_, rfl⟩

end

section
attribute [local instance] dbg64
attribute [local instance] stdNew
private local instance : Disp (MInt .i32) := ⟨fun _ x => toString x.val⟩
private local instance : Disp String := ⟨fun _ x => x⟩
example : ∃ a : Variable (MInt .i32), Variable.new [MInt.lit 3, MInt.lit 1, MInt.lit 2] = .ok (.ok a) ∧
    a.display = .ok "Axis{# bins=2, range=[1, 3), class=Variable}" := ⟨⟨[MInt.lit 1, MInt.lit 2, MInt.lit 3]⟩, by decide +kernel, by decide +kernel⟩
example : (CategoryNoFlow.new ["a", "b"]).display = .ok "{{a}, {b}, {overflow}}" := by decide +kernel
example : ∃ a : UniformNoFlow (MInt .i32), UniformNoFlow.withStepSize 4 (MInt.lit (-3)) (MInt.lit 2) = .ok (.ok a) ∧ a.numBins = .ok 4 ∧
    a.display = .ok "Axis{# bins=4, range=[-3, 5), class=UniformNoFlow}" := ⟨⟨⟨4, MInt.lit (-3), MInt.lit 5, MInt.lit 2⟩⟩, by decide, by decide, by decide +kernel⟩
end
end NdHist
