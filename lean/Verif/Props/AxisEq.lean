import Verif.Props.Access
import Verif.Props.UniformInt
import Verif.Props.Variable
import Verif.Props.Category
/-!
# What it means for axes to be equal (C45), and concrete cases for C37, C38, C43, C45
-/
namespace NdHist

theorem HMap.beq_iff {K V : Type} [DecidableEq K] [DecidableEq V] {m m' : HMap K V} (hn : m.NodupKeys) (hn' : m'.NodupKeys) :
    HMap.beq (fun x y => decide (x = y)) m m' = true ↔ ∀ k, m.get k = m'.get k := by
  simp only [HMap.beq, Bool.and_eq_true, List.all_eq_true, beq_iff_eq]
  constructor
  · rintro ⟨h2, h3⟩ k
    have hget : ∀ k v, m.get k = some v → m'.get k = some v := by
      intro k v hv
      have := h3 _ ((HMap.mem_entries_iff hn k v).2 hv)
      simp only at this
      split at this
      · rename_i w hw; rw [hw, of_decide_eq_true this]
      · cases this
    cases hv : m.get k with
    | some v => exact (hget k v hv).symm
    | none =>
      have hsub : m.keys ⊆ m'.keys := by
        intro k hk
        obtain ⟨v, hv⟩ := (HMap.get_isSome m k).2 hk
        exact (HMap.get_isSome m' k).1 ⟨v, hget k v hv⟩
      have hperm : m.keys.Perm m'.keys :=
        (List.subperm_of_subset hn hsub).perm_of_length_le (by rw [← HMap.len_eq_keys, ← HMap.len_eq_keys, h2])
      symm
      rw [HMap.get_eq_none] at hv ⊢
      exact fun hk => hv (hperm.mem_iff.2 hk)
  · intro h
    refine ⟨?_, ?_⟩
    · rw [HMap.len_eq_keys, HMap.len_eq_keys]
      refine List.Perm.length_eq ((List.perm_ext_iff_of_nodup hn hn').2 fun k => ?_)
      rw [← HMap.get_isSome, ← HMap.get_isSome, h]
    · rintro ⟨k, v⟩ hm
      have hv := (HMap.mem_entries_iff hn k v).1 hm
      simp only
      rw [← h, hv]
      simp

theorem Category.new_nodup [Cfg] {T : Type} [DecidableEq T] (vs : List T) :
    (Category.new vs).mapTToIndex.NodupKeys ∧ (Category.new vs).mapIndexToT.NodupKeys := by
  induction vs using List.reverseRecOn with
  | nil => exact ⟨HMap.nodup_empty, HMap.nodup_empty⟩
  | append_singleton vs v ih =>
    rw [Category.new_append]
    exact ⟨HMap.nodup_insert ih.1 _ _, HMap.nodup_insert ih.2 _ _⟩

/-- C45: two category axes are equal exactly when they list the same categories in the same order. -/
theorem C45_category [Cfg] {T : Type} [DecidableEq T] (vs vs' : List T) :
    (PEq.peq (Category.new vs) (Category.new vs') = true ↔ vs = vs') ∧
    (PEq.peq (CategoryNoFlow.new vs) (CategoryNoFlow.new vs') = true ↔ vs = vs') := by
  have key : PEq.peq (Category.new vs) (Category.new vs') = true ↔ vs = vs' := by
    show (HMap.beq (fun i j => decide (i = j)) (Category.new vs).mapTToIndex (Category.new vs').mapTToIndex &&
      HMap.beq (fun x y => decide (x = y)) (Category.new vs).mapIndexToT (Category.new vs').mapIndexToT) = true ↔ _
    rw [Bool.and_eq_true, HMap.beq_iff (Category.new_nodup vs).1 (Category.new_nodup vs').1,
      HMap.beq_iff (Category.new_nodup vs).2 (Category.new_nodup vs').2]
    constructor
    · rintro ⟨-, h⟩
      apply List.ext_getElem?
      intro i
      have h1 := (Category.new_spec vs).2.1 i
      have h2 := (Category.new_spec vs').2.1 i
      rw [← h1, ← h2]
      exact h i
    · rintro rfl
      exact ⟨fun _ => rfl, fun _ => rfl⟩
  exact ⟨key, key⟩

theorem vecEq_iff {T : Type} [PEq T] : ∀ (l l' : List T), vecEq l l' = true ↔
    List.Forall₂ (fun x y => PEq.peq x y = true) l l'
  | [], [] => by simp [vecEq]
  | [], _ :: _ => by simp [vecEq]
  | _ :: _, [] => by simp [vecEq]
  | a :: l, b :: l' => by simp [vecEq, vecEq_iff l l']

/-- C45: two variable axes over integers are equal exactly when they were given the same edges, in whatever order. -/
theorem C45_variable_int [Cfg] [StdLib] {τ : IntTy} {edges edges' : List (MInt τ)} {a a' : Variable (MInt τ)}
    (h : Variable.new edges = .ok (.ok a)) (h' : Variable.new edges' = .ok (.ok a')) :
    PEq.peq a a' = true ↔ edges.Perm edges' := by
  have hp := ((C10_variable_new_sorts edges).2 a h).1
  have hp' := ((C10_variable_new_sorts edges').2 a' h').1
  have hiff : PEq.peq a a' = true ↔ a.binEdges = a'.binEdges := by
    show @vecEq (MInt τ) (numPEq _) a.binEdges a'.binEdges = true ↔ _
    rw [@vecEq_iff _ (numPEq _), ← List.forall₂_eq_eq_eq]
    have hpe : (fun x y : MInt τ => (numPEq (MInt τ)).peq x y = true) = fun x y => x = y := by
      funext x y
      apply propext
      show POrd.eq x y = true ↔ _
      constructor
      · intro hxy
        rw [MInt.eq_iff] at hxy
        exact MInt.ext (by simpa using hxy)
      · rintro rfl
        rw [MInt.eq_iff]; simp
    rw [hpe]
  rw [hiff]
  constructor
  · intro e
    rw [e] at hp
    exact hp.symm.trans hp'
  · intro hpp
    rw [C10_edge_order_irrelevant_int edges edges' hpp a a' h h']

/-- C45: two uniform integer axes are equal exactly when they were made with the same parameters (whose products fit the type,
which is automatic in a build with overflow checks). -/
theorem C45_uniform_int [Cfg] {τ : IntTy} {num num' : Nat} {low step low' step' : MInt τ} {a a' : Uniform (MInt τ)}
    (h : Uniform.withStepSize num low step = .ok (.ok a)) (h' : Uniform.withStepSize num' low' step' = .ok (.ok a'))
    (h1 : τ.min ≤ (num : ℤ) * step.val ∧ (num : ℤ) * step.val ≤ τ.max)
    (h2 : τ.min ≤ low.val + num * step.val ∧ low.val + num * step.val ≤ τ.max)
    (h1' : τ.min ≤ (num' : ℤ) * step'.val ∧ (num' : ℤ) * step'.val ≤ τ.max)
    (h2' : τ.min ≤ low'.val + num' * step'.val ∧ low'.val + num' * step'.val ≤ τ.max) :
    PEq.peq a a' = true ↔ num = num' ∧ low = low' ∧ step = step' := by
  obtain ⟨e1, e2, e3, e4, -⟩ := (C03_with_step_size_int num low step h1 h2).2.2.2 a h
  obtain ⟨e1', e2', e3', e4', -⟩ := (C03_with_step_size_int num' low' step' h1' h2').2.2.2 a' h'
  show (a.num == a'.num && POrd.eq a.low a'.low && POrd.eq a.high a'.high && POrd.eq a.step a'.step) = true ↔ _
  simp only [Bool.and_eq_true, beq_iff_eq, MInt.eq_iff, e1, e1', e2, e2', e3, e3', e4, e4']
  constructor
  · rintro ⟨⟨⟨k1, k2⟩, -⟩, k4⟩
    exact ⟨k1, MInt.ext (by simpa using k2), MInt.ext (by simpa using k4)⟩
  · rintro ⟨rfl, rfl, rfl⟩
    simp

/-- C45: a uniform axis is equal to itself exactly if none of its parameters is a NaN. -/
theorem C45_uniform_self {T : Type} [POrd T] (a : Uniform T) :
    PEq.peq a a = true ↔ POrd.eq a.low a.low = true ∧ POrd.eq a.high a.high = true ∧ POrd.eq a.step a.step = true := by
  show (a.num == a.num && POrd.eq a.low a.low && POrd.eq a.high a.high && POrd.eq a.step a.step) = true ↔ _
  simp [and_assoc]

/-- C45, consequence: `Uniform::new` accepts a NaN bound, and the resulting axis is not equal to itself, so that not even
`&h + &h` succeeds: two identical histograms compare unequal. -/
theorem C45_counterexample_nan :
    letI := dbg64
    ∃ a : Uniform F64, Uniform.new 10 (.nan : F64) (f64 1) = .ok (.ok a) ∧ PEq.peq a a = false ∧
      ∀ h : VecHistogram (Uniform F64) F64, h.axes = a → h.opBorrow .add h = .ok (.error .mk) := by
  letI := dbg64
  refine ⟨_, rfl, by decide +kernel, ?_⟩
  intro h ha
  rw [(C34_dense .add h h).1, ha]
  decide +kernel

/-! ## Concrete cases -/

section
attribute [local instance] dbg64

/-- C37 -/
example : VecHistogram.fromVec exAxis [MInt.lit 1, MInt.lit 2, (MInt.lit 3 : MInt .u8)] = .ok (.error (.AxisError .InvalidNumberOfBins)) ∧
    ∃ h, VecHistogram.fromVec exAxis [MInt.lit 1, (MInt.lit 2 : MInt .u8)] = .ok (.ok h) := ⟨rfl, _, rfl⟩

example : ∃ h, HashHistogram.fromMap exAxis ⟨[(1, (MInt.lit 2 : MInt .u8))]⟩ = .ok (.ok h) := ⟨_, rfl⟩

example : HashHistogram.fromMap exAxis ⟨[(1, (MInt.lit 2 : MInt .u8)), (2, MInt.lit 1)]⟩ =
    .ok (.error (.AxisError .InvalidNumberOfBins)) := rfl

/-- C38: a loop that panics half way -/
example : ∃ h : VecHistogram (CategoryNoFlow String) (MInt .u8), h.Ok 2 ∧
    h.iterMut (fun _ _ => Fill.fill) = (⟨exAxis, [MInt.lit 5, MInt.lit 255]⟩, some .overflow) :=
  ⟨⟨exAxis, [MInt.lit 4, MInt.lit 255]⟩, ⟨exAxis_lawful, rfl⟩, rfl⟩

/-- C43 -/
example : ∃ h : VecHistogram (CategoryNoFlow String) (MInt .u8), h.Ok 2 ∧ CategoryNoFlow.index h.axes "b" = .ok (some 1) ∧
    h.fillWith "b" (MInt.lit 7 : MInt .u8) = (h, some .overflow) :=
  ⟨⟨exAxis, [MInt.lit 4, MInt.lit 250]⟩, ⟨exAxis_lawful, rfl⟩, rfl, rfl⟩

/-- C45: equal although filled in another order -/
example : letI := numPEq (MInt .u8)
    ((HashHistogram.new exAxis : HashHistogram _ (MInt .u8)).callAllCaught [.fill "a", .fill "b"]).beq
    ((HashHistogram.new exAxis).callAllCaught [.fill "b", .fill "a"]) = true := by decide +kernel
end
end NdHist
