import Verif.Props.Read
/-!
# Concrete cases of C65
-/
namespace NdHist.Examples
open NdHist
section
attribute [local instance] dbg64

theorem rdField (name : String) (x : SVal) (l : List (SVal × SVal)) (h : l.all fun kv => !kv.1.isKey name) : HasField ((.str name, x) :: l) name x :=
  ⟨[], l, rfl, fun kv hkv e => by
    have := List.all_eq_true.1 h kv hkv
    simp [e, SVal.isKey] at this⟩
theorem rdNotField {name : String} {l : List (SVal × SVal)} (h : l.all fun kv => !kv.1.isKey name) (x : SVal) : ¬ HasField l name x := by
  rintro ⟨b, a, rfl, -⟩
  have := List.all_eq_true.1 h (.str name, x) (by simp)
  simp [SVal.isKey] at this

/-- `{"num": 3, "low": 0, "high": 6, "step": 2}`, as a sequence -/
def rdAx : SVal := .seq [.int 3, .int 0, .int 6, .int 2]
theorem rdAx_reads : Reads rdAx (⟨3, .lit 0, .lit 6, .lit 2⟩ : Uniform (MInt .i32)) :=
  C65_uniform.2 ⟨_, _, _, _, .inl ⟨rfl, rfl⟩, ⟨rfl, by decide⟩, C65_int.2 rfl, C65_int.2 rfl, C65_int.2 rfl⟩
/-- a number of bins that does not fit `usize` (here `2^64`, or a negative number) is refused, whatever the rest is -/
example (lo hi st : SVal) (a : Uniform (MInt .i32)) : ¬ Reads (.seq [.int (2 ^ 64), lo, hi, st]) a := by
  rw [C65_uniform]
  rintro ⟨_, _, _, _, ⟨h, -⟩ | ⟨_, ⟨⟩, -⟩, ⟨h1, h2⟩, -⟩
  simp only [SVal.seq.injEq, List.cons.injEq, and_true] at h
  rw [← h.1] at h1
  injection h1 with h1
  have h2 : a.num < 2 ^ 64 := h2
  omega
example (lo hi st : SVal) (a : Uniform (MInt .i32)) : ¬ Reads (.seq [.int (-1), lo, hi, st]) a := by
  rw [C65_uniform]
  rintro ⟨_, _, _, _, ⟨h, -⟩ | ⟨_, ⟨⟩, -⟩, ⟨h1, h2⟩, -⟩
  simp only [SVal.seq.injEq, List.cons.injEq, and_true] at h
  rw [← h.1] at h1
  injection h1 with h1
  omega
example : Reads (.map [(.str "axis", rdAx), (.str "comment", .str "ignored")]) (⟨⟨3, .lit 0, .lit 6, .lit 2⟩⟩ : UniformNoFlow (MInt .i32)) :=
  C65_uniform_noflow.2 ⟨rdAx, .inr ⟨_, rfl, by simp [StringKeys], .cons (rdField _ _ _ (by decide)) .nil⟩, rdAx_reads⟩
/-- the flattened axis is not read from a sequence -/
example (a : UniformCyclic (MInt .i32)) : ¬ Reads rdAx a := by
  rw [C65_uniform_cyclic]; rintro ⟨⟨l, h⟩, -⟩; cases h
/-- unsorted edges are accepted -/
theorem rdVar_reads : Reads (.map [(.str "bin_edges", .seq [.int 5, .int 3])]) (⟨[.lit 5, .lit 3]⟩ : Variable (MInt .i32)) :=
  C65_variable.2 ⟨_, .inr ⟨_, rfl, by simp [StringKeys], .cons (rdField _ _ _ (by decide)) .nil⟩, _, rfl, .cons (C65_int.2 rfl) (.cons (C65_int.2 rfl) .nil)⟩
example : Reads (.seq [.map [(.str "bin_edges", .seq [.int 5, .int 3])]]) (⟨⟨[.lit 5, .lit 3]⟩⟩ : VariableNoFlow (MInt .i32)) :=
  C65_variable_noflow.2 ⟨_, .inl ⟨rfl, rfl⟩, rdVar_reads⟩
example (a : VariableCyclic (MInt .i32)) : ¬ Reads (.int 3) a := by
  rw [C65_variable_cyclic]; rintro ⟨⟨l, h⟩, -⟩; cases h
/-- a missing field is an error -/
example (a : Variable (MInt .i32)) : ¬ Reads (.map [(.str "edges", .seq [.int 5, .int 3])]) a := by
  rw [C65_variable]
  rintro ⟨x, ⟨⟨⟩, -⟩ | ⟨l, h, -, hf⟩, -⟩
  injection h with h
  subst h
  cases hf with | cons h _ => exact rdNotField (by decide) _ h
/-- the same index given twice: the last one counts -/
def rdMap : SVal := .map [(.int 0, .str "a"), (.int 0, .str "b")]
theorem rdMap_reads : IsMapOf IsUsize Reads rdMap (⟨[(0, "b")]⟩ : HMap Nat String) := by
  refine ⟨_, [(0, "a"), (0, "b")], rfl, .cons ⟨⟨rfl, by decide⟩, C65_string.2 rfl⟩ (.cons ⟨⟨rfl, by decide⟩, C65_string.2 rfl⟩ .nil), rfl, fun k => ?_⟩
  exact get_collect_last [(0, "a"), (0, "b")] k
theorem rdCat_reads : Reads (.seq [.map [], rdMap]) (⟨⟨[]⟩, ⟨[(0, "b")]⟩⟩ : Category String) :=
  C65_category.2 ⟨_, _, .inl ⟨rfl, rfl⟩, ⟨_, [], rfl, .nil, rfl, fun _ => rfl⟩, rdMap_reads⟩
example : Reads (.seq [.seq [.map [], rdMap]]) (⟨⟨⟨[]⟩, ⟨[(0, "b")]⟩⟩⟩ : CategoryNoFlow String) :=
  C65_category_noflow.2 ⟨_, .inl ⟨rfl, rfl⟩, rdCat_reads⟩
/-- the two maps need not be inverse to each other -/
example : Reads (.seq [.map [], rdMap]) (⟨⟨[]⟩, ⟨[(0, "b")]⟩⟩ : Category String) :=
  C65_category.2 ⟨_, _, .inl ⟨rfl, rfl⟩, ⟨_, [], rfl, .nil, rfl, fun _ => rfl⟩, rdMap_reads⟩
/-- a `shape` that disagrees with the axis is accepted -/
example : Reads (.seq [.seq [rdAx], .seq [.int 77]]) (⟨⟨3, .lit 0, .lit 6, .lit 2⟩, [77]⟩ : AxesTuple1 (Uniform (MInt .i32))) :=
  C65_axes1.2 ⟨_, _, .inl ⟨rfl, rfl⟩, rdAx_reads, _, rfl, .cons ⟨rfl, by decide⟩ .nil⟩
/-- two axes are not read from three -/
example (x y z s : SVal) (a : AxesTuple ⟨Uniform (MInt .i32), inferInstance⟩ ⟨Uniform (MInt .i32), inferInstance⟩ [])
    [Serde (AxTy.A ⟨Uniform (MInt .i32), inferInstance⟩)] : ¬ Reads (.seq [.seq [x, y, z], s]) a := by
  rw [C65_axes]
  rintro ⟨w, t, ⟨h, -⟩ | ⟨_, ⟨⟩, -⟩, h2, -⟩
  simp only [SVal.seq.injEq, List.cons.injEq, and_true] at h
  rw [← h.1] at h2
  obtain ⟨v, vs, e, -, h3⟩ := (C65_tuple.2 _ _ _ _).1 h2
  cases e
  obtain ⟨v, vs, e, -, h3⟩ := (C65_tuple.2 _ _ _ _).1 h3
  cases e
  cases (C65_tuple.1 _ _).1 h3
example : Reads (.map [(.str "sum", .int 4)]) (⟨.lit 4⟩ : Sum (MInt .u8)) :=
  C65_sum.2 ⟨_, .inr ⟨_, rfl, by simp [StringKeys], .cons (rdField _ _ _ (by decide)) .nil⟩, C65_int.2 rfl⟩
/-- 256 does not fit -/
example (a : Sum (MInt .u8)) : ¬ Reads (.seq [.int 256]) a := by
  rw [C65_sum]
  rintro ⟨x, ⟨h, -⟩ | ⟨_, ⟨⟩, -⟩, h2⟩
  cases h
  rw [C65_int] at h2
  injection h2 with h2
  have := a.sum.le_max
  have : (256 : Int) ≤ IntTy.u8.max := h2 ▸ this
  revert this; decide
example : Reads (.seq [.int 4, .int 10]) (⟨.lit 4, .lit 10⟩ : WeightedSum (MInt .u8)) := C65_weighted_sum.2 ⟨_, _, .inl ⟨rfl, rfl⟩, C65_int.2 rfl, C65_int.2 rfl⟩
example : Reads (.seq [.int 4, .int 10, .int 2, .unit]) (⟨.lit 4, .lit 10, .lit 2⟩ : Mean (MInt .u8) F64 (MInt .u8)) :=
  C65_mean.2 ⟨_, _, _, .inl ⟨rfl, rfl⟩, C65_int.2 rfl, C65_int.2 rfl, C65_int.2 rfl⟩
example : Reads (.seq [.int 4, .int 10, .int 2, .int 2, .int 2, .unit]) (⟨.lit 4, .lit 10, .lit 2, .lit 2, .lit 2⟩ : WeightedMean (MInt .u8) (MInt .u8) F64 (MInt .u8)) :=
  C65_weighted_mean.2 ⟨_, _, _, _, _, .inl ⟨rfl, rfl⟩, C65_int.2 rfl, C65_int.2 rfl, C65_int.2 rfl, C65_int.2 rfl, C65_int.2 rfl⟩
example : Reads (.seq [rdAx, .seq [.int 1]]) (⟨⟨3, .lit 0, .lit 6, .lit 2⟩, [.lit 1]⟩ : VecHistogram (Uniform (MInt .i32)) (MInt .u8)) :=
  C65_dense.2 ⟨_, _, .inl ⟨rfl, rfl⟩, rdAx_reads, _, rfl, .cons (C65_int.2 rfl) .nil⟩
/-- bin numbers beyond the axis are accepted -/
example : Reads (.seq [rdAx, .map [(.int 1000, .int 1)]]) (⟨⟨3, .lit 0, .lit 6, .lit 2⟩, ⟨[(1000, .lit 1)]⟩⟩ : HashHistogram (Uniform (MInt .i32)) (MInt .u8)) :=
  C65_sparse.2 ⟨_, _, .inl ⟨rfl, rfl⟩, rdAx_reads, _, [(1000, .lit 1)], rfl, .cons ⟨⟨rfl, by decide⟩, C65_int.2 rfl⟩ .nil, rfl, fun k => get_collect_last [(1000, (.lit 1 : MInt .u8))] k⟩
example : Reads (.seq [.int 7, .str "b", .int 1]) (⟨7, "b", .lit 1⟩ : Item String (MInt .u8)) :=
  C65_item.2 ⟨_, _, _, .inl ⟨rfl, rfl⟩, ⟨rfl, by decide⟩, C65_string.2 rfl, C65_int.2 rfl⟩
example : Reads (.int 1) (Flt.ofRat 1 : F64) := C65_f64.2 (.inr ⟨1, rfl, by norm_num⟩)
end
end NdHist.Examples
