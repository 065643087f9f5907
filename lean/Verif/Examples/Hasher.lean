import Verif.Props.Hasher
import Verif.Examples.Prog
/-!
# Concrete cases of the theorems in `Props/Hasher.lean`
-/
namespace NdHist.Examples
open NdHist
section
attribute [local instance] dbg64 numPEq

/-- maps that iterate backwards -/
def exOrdersBack : HistProg.MapOrders (CategoryNoFlow String) (MInt .i32) where
  map m := ⟨m.entries.reverse, List.reverse_perm _⟩
  keys l r := ⟨(l.values.keys ++ r.values.keys).dedup.reverse, List.nodup_reverse.2 (List.nodup_dedup _), by intro k; simp⟩

/-- `x.fill("a"); y.fill_with("b", 3); y.fill("a"); z = &x * &y; for v in z.values_mut() { *v += v }; z.iter()` sorted, and the number of entries -/
def exSparseProg : SparseProg (CategoryNoFlow String) (MInt .i32) (List (Nat × MInt .i32) × Nat × Bool) :=
  .call 0 (.fill "a") fun _ =>
  .call 1 (.fillWith "b" (.lit 3 : MInt .i32)) fun _ =>
  .call 1 (.fill "a") fun _ =>
  .borrow .mul 0 1 2 fun _ =>
  .forValues 2 (fun v => addAssign v v) <|
  .items 2 fun l => .len 0 fun n => .eq 0 1 fun e => .done (l.map fun it => (it.index, it.value), n, e)

/-- the two orders differ, the results do not -/
theorem exSparseProg_result : ((exSparseProg.run (fun _ => exOrders) fun _ => HashHistogram.new exAxis).map (·.2)) = .ok ([(0, .lit 2), (1, .lit 0)], 1, false) := by
  decide +kernel
example : ((exSparseProg.run (fun _ => exOrdersBack) fun _ => HashHistogram.new exAxis).map (·.2)) = .ok ([(0, .lit 2), (1, .lit 0)], 1, false) := by
  have h := C81_from_new exSparseProg (fun _ => exOrders) (fun _ => exOrdersBack) fun _ => exAxis
  have hr := exSparseProg_result
  rcases h1 : exSparseProg.run (fun _ => exOrders) fun _ => HashHistogram.new exAxis with p | ⟨e, r⟩
  · rw [h1] at hr; cases hr
  · rcases h2 : exSparseProg.run (fun _ => exOrdersBack) fun _ => HashHistogram.new exAxis with p | ⟨e', r'⟩
    · rw [h1, h2] at h; exact False.elim h
    · rw [h1, h2] at h; rw [h1] at hr
      rw [← hr]; exact congrArg Except.ok h.1.symm
example : ∀ w w', SparseProg.SameEnd (exSparseProg.run w fun _ => HashHistogram.new exAxis) (exSparseProg.run w' fun _ => HashHistogram.new exAxis) :=
  fun w w' => C81_program exSparseProg w w' fun _ => SameHist.refl HMap.nodup_empty
end
end NdHist.Examples
