import Verif.Props.Access
/-!
# Concrete cases of the theorems in `Props/Fill.lean`

Every theorem applied to a concrete histogram. `exAxis` has the categories "a" and "b" and no overflow bin; "zzz" has no bin. `exCalls` fills "a" twice,
"b" once and "zzz" once.
-/
namespace NdHist.Examples
open NdHist
section
attribute [local instance] dbg64

/-- a dense `u8` histogram: one more entry in bin 0 overflows -/
def exD : VecHistogram (CategoryNoFlow String) (MInt .u8) := ⟨exAxis, [.lit 255, .lit 9]⟩
theorem exD_ok : exD.Ok 2 := ⟨exAxis_lawful, rfl⟩
/-- a sparse `u8` histogram with a value in bin 1 only -/
def exS : HashHistogram (CategoryNoFlow String) (MInt .u8) := ⟨exAxis, ⟨[(1, .lit 7)]⟩⟩
theorem exS_ok : exS.Ok 2 := ⟨exAxis_lawful, by unfold HMap.NodupKeys; decide, by decide⟩
/-- a new dense histogram -/
def exNew : VecHistogram (CategoryNoFlow String) (MInt .u8) := ⟨exAxis, [.lit 0, .lit 0]⟩
theorem exNew_new : VecHistogram.new exAxis = .ok exNew := rfl

example : ∃ h : VecHistogram _ (MInt .u8), VecHistogram.new exAxis = .ok h ∧ h.valueAtIndex 1 = some (MInt.lit 0) := by
  obtain ⟨h, h1, -, -, h4⟩ := C26_new (V := MInt .u8) exAxis_lawful
  exact ⟨h, h1, h4 1⟩
example : ∃ v, exD.valueAtIndex 1 = some v ∧ exD.value "b" = .ok (some v) := (C26_value exD_ok "b").1 1 rfl
example : exD.value "zzz" = .ok none := (C26_value exD_ok "zzz").2.1.1 rfl
/-- a fill of bin 0 that panics: bin 1 keeps its value -/
example : (exD.call (.fill "a")).1.valueAtIndex 1 = exD.valueAtIndex 1 ∧ (exD.call (.fill "a")).2 = some .overflow :=
  ⟨((C27_dense exD_ok (.fill "a")).2.2.1 0 rfl).2 1 (by decide), by
    obtain ⟨v, h1, -, h3⟩ := ((C27_dense exD_ok (.fill "a")).2.2.1 0 rfl).1
    cases h1; exact h3⟩
/-- the first fill of bin 0 of a sparse histogram fills the default value -/
example : (exS.call (.fill "a")).1.valueAtIndex 0 = some (MInt.lit 1) ∧ (exS.call (.fill "a")).1.valueAtIndex 1 = some (MInt.lit 7) :=
  ⟨((C27_sparse exS_ok (.fill "a")).2.2.1 0 rfl).1, ((C27_sparse exS_ok (.fill "a")).2.2.1 0 rfl).2.2 1 (by decide)⟩
example : exS.call (.fill "zzz") = (exS, none) := (C27_sparse exS_ok (.fill "zzz")).2.2.2.1 rfl
example : (exNew.callAllCaught exCalls).valueAtIndex 0 = some (filledWith [.fill "a", .fillWith "a" (MInt.lit 3 : MInt .u8)] RDefault.dflt) :=
  (C28_dense exAxis_lawful exNew_new exCalls).2.2 0
example : ((HashHistogram.new exAxis).callAllCaught exCalls).valueAtIndex 5 = none := (C28_sparse exAxis exCalls 5).trans rfl
example : ((HashHistogram.new exAxis).callAllCaught exCalls).valueAtIndex 1 = some (filledWith [.fillWith "b" (MInt.lit 7 : MInt .u8)] RDefault.dflt) :=
  (C28_sparse exAxis exCalls 1).trans (if_neg (by decide +kernel))
/-- a program that panics at its second fill -/
example : ∃ pre c post, [.fill "b", .fill "a", .fill "b"] = pre ++ c :: post ∧ ((exD.callAllCaught pre).call c).2 = some .overflow ∧
    (exD.callAll [.fill "b", .fill "a", .fill "b"]).1 = exD.callAllCaught (pre ++ [c]) :=
  (C28_until_panic exD [.fill "b", .fill "a", .fill "b"]).2 .overflow rfl
example : ((HashHistogram.new exAxis).callAll exCalls).1 = (HashHistogram.new exAxis).callAllCaught exCalls :=
  (C28_until_panic_sparse (HashHistogram.new exAxis) exCalls).1 rfl
end

section
attribute [local instance] rel64

/-- wrapping additions commute -/
theorem rel_add_comm (a b v : MInt .u8) : ((addAssign b) ((addAssign a) v).1).1 = ((addAssign a) ((addAssign b) v).1).1 := by
  have h : ∀ d v : MInt .u8, residue ((addAssign d) v).1 = residue v + residue d := by
    intro d v
    have := int_addAssign_residue d v ((addAssign d) v).1
    refine this (Prod.ext rfl ?_)
    simp only [addAssign, Upd.store]
    have : ∃ z, @RNum.add (MInt .u8) rel64 MInt.instRNum v d = .ok z := by
      show ∃ z, MInt.arith (v.val + d.val) = .ok z
      unfold MInt.arith
      split
      · exact ⟨_, rfl⟩
      · exact ⟨_, if_neg (by decide)⟩
    obtain ⟨z, hz⟩ := this
    rw [hz]
  apply residue_inj
  rw [h, h, h, h]; ring

/-- the order of the fills of a `u8` histogram is irrelevant in a release build, even if sums overflow -/
example : exD.callAllCaught [.fillWith "a" (MInt.lit 200 : MInt .u8), .fillWith "b" (MInt.lit 250 : MInt .u8), .fillWith "a" (MInt.lit 99 : MInt .u8)] =
    exD.callAllCaught [.fillWith "a" (MInt.lit 99 : MInt .u8), .fillWith "a" (MInt.lit 200 : MInt .u8), .fillWith "b" (MInt.lit 250 : MInt .u8)] := by
  apply C29_order_dense
  · exact (List.perm_append_singleton _ _ : ([_, _] ++ [_] : List _).Perm _)
  · intro a ha b hb v
    simp only [List.mem_cons, List.not_mem_nil, or_false] at ha hb
    rcases ha with rfl | rfl | rfl <;> rcases hb with rfl | rfl | rfl <;> exact rel_add_comm _ _ v
example : ∀ i, (exS.callAllCaught [.fillWith "a" (MInt.lit 200 : MInt .u8), .fillWith "b" (MInt.lit 250 : MInt .u8)]).valueAtIndex i =
    (exS.callAllCaught [.fillWith "b" (MInt.lit 250 : MInt .u8), .fillWith "a" (MInt.lit 200 : MInt .u8)]).valueAtIndex i := by
  refine (C29_order_sparse (List.Perm.swap ..) ?_).2
  intro a ha b hb v
  simp only [List.mem_cons, List.not_mem_nil, or_false] at ha hb
  rcases ha with rfl | rfl <;> rcases hb with rfl | rfl <;> exact rel_add_comm _ _ v
end

section
attribute [local instance] dbg64

/-- the total of the bins is the total of the weights of the calls with a bin: 1 + 7 + 3 -/
example : ((⟨exAxis, [.lit 4, .lit 7]⟩ : VecHistogram (CategoryNoFlow String) (MInt .u8)).values.map fun v => v.val).sum =
    ((callsCovered exAxis (numCalls [("a", none), ("b", some (MInt.lit 7 : MInt .u8)), ("zzz", none), ("a", some (MInt.lit 3))])).map
      (fun call => ((call.on RDefault.dflt).1.val : ℤ))).sum := by
  refine C30_conservation (fun v : MInt .u8 => v.val) (fun call => ((call.on RDefault.dflt).1.val : ℤ)) ?_ rfl exAxis_lawful exNew_new rfl
  intro call hc v hv
  obtain ⟨cw, hcw, rfl⟩ := List.mem_map.1 hc
  obtain ⟨c, w⟩ := cw
  have key : ∀ d : MInt .u8, (addAssign d v).2 = none → (addAssign d v).1.val = v.val + d.val := fun d h =>
    int_addAssign_val rfl d v _ (Prod.ext rfl h)
  simp only [List.mem_cons, Prod.mk.injEq, List.not_mem_nil, or_false] at hcw
  rcases hcw with ⟨rfl, rfl⟩ | ⟨rfl, rfl⟩ | ⟨rfl, rfl⟩ | ⟨rfl, rfl⟩
  · exact key (MInt.lit 1) hv
  · exact key (MInt.lit 7) hv
  · exact key (MInt.lit 1) hv
  · exact key (MInt.lit 3) hv
example : callsCovered (V := MInt .u8) exAxis [.fill "a", .fillWith "b" (MInt.lit 7 : MInt .u8)] = [.fill "a", .fillWith "b" (MInt.lit 7 : MInt .u8)] := by
  apply C30_all_counted
  intro call hc
  simp only [List.mem_cons, List.not_mem_nil, or_false] at hc
  rcases hc with rfl | rfl
  · exact ⟨0, rfl⟩
  · exact ⟨1, rfl⟩
example : ∃ v, ((HashHistogram.new exAxis).callAllCaught exCalls).valueAtIndex 1 = some v ∧ (exNew.callAllCaught exCalls).valueAtIndex 1 = some v :=
  (C31_sparse_dense exAxis_lawful exNew_new exCalls 1).1 ⟨.fillWith "b" (MInt.lit 7 : MInt .u8), by simp [exCalls], rfl⟩
example : ((HashHistogram.new exAxis).callAllCaught [.fill "a"]).value "b" = .ok (none : Option (MInt .u8)) := by
  rw [C31_value exAxis_lawful exNew_new [.fill "a"] "b"]; decide
example : ((HashHistogram.new exAxis : HashHistogram _ (MInt .u8)).callAllCaught exCalls).values.len ≤ 2 := (C32_keys exAxis_lawful exCalls).2.2.2
example : ∃ items, exS.iter ⟨_, List.Perm.refl _⟩ = .ok items ∧ ∃ it ∈ items, it.index = 1 ∧ it.value = MInt.lit 7 := by
  obtain ⟨items, h1, -, -, h4, -⟩ := C32_iter exS_ok ⟨_, List.Perm.refl _⟩
  exact ⟨items, h1, h4 1 _ rfl⟩
end
end NdHist.Examples
