import Verif.Examples.IntMean
import Verif.Examples.Wrap
import Verif.Props.SparseFill
/-!
# Concrete cases of the theorems in `Props/SparseFill.lean`
-/
namespace NdHist.Examples
open NdHist
section
attribute [local instance] dbg64 stdNew

def exI8Sparse : HashHistogram (CategoryNoFlow String) (MInt .i8) := HashHistogram.new exAxis
/-- both stop at the third call -/
example : (exI8Sparse.callAll (numCalls exI8Hist)).2 = (exI8New.callAll (numCalls exI8Hist)).2 :=
  (C31_until_panic exAxis_faithful.lawful (d := exI8New) rfl (numCalls exI8Hist)).1
example : (exI8Sparse.callAll (numCalls exI8Hist)).2 = some .overflow := by decide +kernel
example : ∃ s' p pre, exI8Sparse.callAll (numCalls exI8Hist) = (s', p) ∧ pre <+: exI8Hist := by
  obtain ⟨s', p, pre, h1, h2, -⟩ := C73_checked_sparse rfl exAxis_faithful exI8Hist (fun _ _ => trivial)
  exact ⟨s', p, pre, h1, h2⟩

/-- only "b" -/
def exMeanHistB : List (String × MInt .i32) := [("b", .lit (-7)), ("b", .lit 4)]
def exMeanSparse : HashHistogram (CategoryNoFlow String) (Mean (MInt .i32) F64 (MInt .u32)) := HashHistogram.new exAxis
example : (exMeanSparse.callAll (meanFills exMeanHistB)).2 = none ↔ ∀ (i : Nat) (b : SingleValueBinInterval String), i < 2 → @Axis.bin _ dbg64 _ exAxis i = .ok (some b) →
    (∀ q, q <+: samplesIn (SingleValueBinInterval.Covers ["a", "b"]) b exMeanHistB → InRange .i32 q.sum) ∧
      InRange .i32 ((samplesIn (SingleValueBinInterval.Covers ["a", "b"]) b exMeanHistB).map fun x => x ^ 2).sum ∧
      InRange .u32 (samplesIn (SingleValueBinInterval.Covers ["a", "b"]) b exMeanHistB).length :=
  C75_panics_sparse rfl exAxis_faithful exMeanHistB (fun _ _ => trivial)
example (o : (exMeanSparse.callAll (meanFills exMeanHistB)).1.values.Order) :
    ∃ items, (exMeanSparse.callAll (meanFills exMeanHistB)).1.iter o = .ok items ∧ ∃ it ∈ items, it.index = 1 ∧ it.bin = .Bin "b" := by
  obtain ⟨items, h1, -, -, h2⟩ := C75_means_sparse (F := .f64) rfl (by decide) (by decide) (by decide) (by decide) exAxis_faithful exMeanHistB (fun _ _ => trivial)
    (Prod.ext rfl (by decide +kernel) : exMeanSparse.callAll (meanFills exMeanHistB) = (_, none)) o
  exact ⟨items, h1, h2 1 (.Bin "b") (by decide) rfl ⟨("b", .lit 4), by simp [exMeanHistB], rfl⟩⟩

def exWMeanSparse : HashHistogram (CategoryNoFlow String) (WeightedMean (MInt .i32) (MInt .i32) F64 (MInt .u32)) := HashHistogram.new exAxis
example (o : (exWMeanSparse.callAll (weightedMeanFills exWMeanHist)).1.values.Order) :
    ∃ items, (exWMeanSparse.callAll (weightedMeanFills exWMeanHist)).1.iter o = .ok items := by
  obtain ⟨items, h1, -⟩ := C75_weighted_means_sparse (F := .f64) rfl (by decide) exAxis_faithful exWMeanHist (fun _ _ => trivial)
    (Prod.ext rfl (by decide +kernel) : exWMeanSparse.callAll (weightedMeanFills exWMeanHist) = (_, none)) o
  exact ⟨items, h1⟩
end
end NdHist.Examples
