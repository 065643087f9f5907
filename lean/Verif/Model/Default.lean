import Verif.Model.Hist
import Verif.Model.Variable
import Verif.Model.Category
import Verif.Model.Axes
/-!
# `#[derive(Default)]` on axes and histograms

Every field gets its own default: `0`, the default of the coordinate type, an empty `Vec`, an empty `HashMap`.
-/
namespace NdHist
variable {T A V : Type}

/-- axis/uniform.rs:31 -/
instance [RDefault T] : RDefault (Uniform T) := ⟨⟨0, RDefault.dflt, RDefault.dflt, RDefault.dflt⟩⟩
/-- axis/uniformnoflow.rs:28 -/
instance [RDefault T] : RDefault (UniformNoFlow T) := ⟨⟨RDefault.dflt⟩⟩
/-- axis/uniformcyclic.rs:48 -/
instance [RDefault T] : RDefault (UniformCyclic T) := ⟨⟨RDefault.dflt⟩⟩
/-- axis/variable.rs:33 -/
instance : RDefault (Variable T) := ⟨⟨[]⟩⟩
/-- axis/variablenoflow.rs:30 -/
instance : RDefault (VariableNoFlow T) := ⟨⟨RDefault.dflt⟩⟩
/-- axis/variablecyclic.rs:28 -/
instance : RDefault (VariableCyclic T) := ⟨⟨RDefault.dflt⟩⟩
/-- axis/category.rs:27 -/
instance : RDefault (Category T) := ⟨⟨⟨[]⟩, ⟨[]⟩⟩⟩
/-- axis/categorynoflow.rs:19 -/
instance : RDefault (CategoryNoFlow T) := ⟨⟨RDefault.dflt⟩⟩
/-- axes.rs:8, one axis -/
instance [RDefault A] : RDefault (AxesTuple1 A) := ⟨⟨RDefault.dflt, []⟩⟩
/-- the standard library's `Default` for tuples (which has it up to 12 components; the model has it for any number) -/
instance [Cfg] : RDefault (Tup []) := ⟨()⟩
instance [Cfg] {t : AxTy} {ts : List AxTy} [RDefault t.A] [RDefault (Tup ts)] : RDefault (Tup (t :: ts)) := ⟨(RDefault.dflt, RDefault.dflt)⟩
/-- axes.rs:8, two or more axes: the shape is left empty although the axes are there -/
instance [Cfg] {t₀ t₁ : AxTy} {ts : List AxTy} [RDefault (Tup (t₀ :: t₁ :: ts))] : RDefault (AxesTuple t₀ t₁ ts) :=
  ⟨⟨RDefault.dflt, []⟩⟩
/-- histogram/vechistogram.rs:14 -/
instance [RDefault A] : RDefault (VecHistogram A V) := ⟨⟨RDefault.dflt, []⟩⟩
/-- histogram/hashhistogram.rs:50 -/
instance [RDefault A] : RDefault (HashHistogram A V) := ⟨⟨RDefault.dflt, ⟨[]⟩⟩⟩

end NdHist
