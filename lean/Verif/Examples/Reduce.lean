import Verif.Examples.WrapOps
import Verif.Examples.Merge
import Verif.Props.Reduce
/-!
# Concrete cases of the theorems in `Props/Reduce.lean`
-/
namespace NdHist.Examples
open NdHist
section
attribute [local instance] dbg64 stdNew

/-- the product of the values, as natural numbers -/
example : (Split.join (.part (exD2.parIter.take 1)) (.part (exD2.parIter.drop 1))).reduce (fun it => it >>= fun it => .ok it.value.val.toNat) (fun a b => .ok (a * b)) 1 =
    (exD2.iter >>= foldSeq (fun it => .ok it.value.val.toNat) (fun a b => .ok (a * b)) 1) :=
  C80_reduce exD2_ok _ _ (List.take_append_drop 1 _)
example (o o' : exS.values.Order) (x : Nat) := C80_reduce_sparse exS_ok o o' (fun it => .ok it.value.val.toNat) (.part (exS.parIter o)) rfl x

example := C80_modulo_sum (C73_wrapping (τ := .u8)) (.join (.part [exW 200, exW 100]) (.part [exW 7]))
example : (Split.join (.part [exW 200, exW 100]) (.part [exW 7])).sum = .ok (exW 51) := by decide +kernel
example := C80_checked_sum rfl (.join (.part [.lit 50, .lit 100]) (.part [.lit 50] : Split (MInt .u8)))
/-- it is 200 -/
example : (Split.join (.part [.lit 50, .lit 100]) (.part [.lit 50] : Split (MInt .u8))).sum = .ok (.lit 200) := by decide +kernel
example := C80_float_sum (.join (.part [f64 0.1]) (.part [f64 0.2, f64 0.3]))
example : ∃ v, (Split.join (.part [f64 1]) (.join (.part [f64 2, f64 3]) (.part []))).sum = .ok v ∧ v.isFin ∧ v.val = 6 := by
  obtain ⟨v, h1, h2, h3⟩ := C80_float_exact (F := .f64) (e := 0) (by decide) (.join (.part [f64 1]) (.join (.part [f64 2, f64 3]) (.part [])))
    (by intro v hv; simp only [Split.items, List.cons_append, List.nil_append, List.append_nil, List.mem_cons, List.not_mem_nil, or_false] at hv
        rcases hv with rfl | rfl | rfl <;> decide +kernel)
    (by intro v hv; simp only [Split.items, List.cons_append, List.nil_append, List.append_nil, List.mem_cons, List.not_mem_nil, or_false] at hv
        rcases hv with rfl | rfl | rfl
        · exact ⟨1, by decide +kernel⟩
        · exact ⟨2, by decide +kernel⟩
        · exact ⟨3, by decide +kernel⟩) (by decide +kernel)
  exact ⟨v, h1, h2, by rw [h3]; decide +kernel⟩

def exCountNew : VecHistogram (CategoryNoFlow String) (MInt .u8) := ⟨exAxis, [.lit 0, .lit 0]⟩
def exCounts : List String := ["a", "b", "x", "a"]
/-- "x" is in no bin: 3 -/
example : let h' := (exCountNew.callAll (exCounts.map .fill)).1
    ∃ v, (Split.join (.part (h'.parValues.take 1)) (.part (h'.parValues.drop 1))).sum = .ok v ∧ v.val = 3 := ⟨.lit 3, by decide +kernel, rfl⟩
example (s : Split (MInt .u8)) (hs : s.items = (exCountNew.callAll (exCounts.map .fill)).1.parValues) :=
  C80_counts rfl exAxis_faithful (h := exCountNew) rfl exCounts (fun _ _ => trivial) (Prod.ext rfl (by decide +kernel)) s hs
example (o : ((HashHistogram.new exAxis : HashHistogram _ (MInt .u8)).callAll (exCounts.map .fill)).1.values.Order) (s : Split (MInt .u8))
    (hs : s.items = ((HashHistogram.new exAxis : HashHistogram _ (MInt .u8)).callAll (exCounts.map .fill)).1.parValues o) :=
  C80_counts_sparse rfl exAxis_faithful exCounts (fun _ _ => trivial) (Prod.ext rfl (by decide +kernel)) o s hs
example (o : ((HashHistogram.new exAxis : HashHistogram _ (MInt .u8)).callAll (exCounts.map .fill)).1.values.Order) :=
  C30_sparse MInt.val rfl exAxis_faithful.lawful (d := exCountNew) rfl (exCounts.map .fill) o
end
end NdHist.Examples
