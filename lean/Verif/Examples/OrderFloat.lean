import Verif.Props.OrderFloat
import Verif.Examples.Rest
/-!
# Concrete cases of the theorems in `Props/OrderFloat.lean`
-/
namespace NdHist.Examples
open NdHist
section
attribute [local instance] dbg64

/-- floats as fractions in unary -/
def exFltText : F64 → List Char
  | .nan => ['N']
  | .inf s => [if s then '-' else '+', 'i']
  | .fin s m _ => (if s then '-' else '+') :: (if m < 0 then '-' else '+') :: (List.replicate m.num.natAbs '1' ++ '/' :: List.replicate m.den '1')

local instance exFltDisp : Disp F64 := ⟨fun _ x => String.ofList (exFltText x)⟩

theorem exFlt_plain (p : Option Nat) : PlainText F64 p where
  inj a b h := by
    have h := congrArg String.toList h
    simp only [Disp.fmt, String.toList_ofList] at h
    have rep : ∀ {n k n' k' : Nat}, List.replicate n '1' ++ '/' :: List.replicate k '1' = List.replicate n' '1' ++ '/' :: List.replicate k' '1' → n = n' ∧ k = k' := by
      intro n
      induction n with
      | zero =>
        intro k n' k' h
        cases n' with
        | zero => have := congrArg List.length h; simp at this; exact ⟨rfl, this⟩
        | succ n' => simp [List.replicate_succ] at h
      | succ n ih =>
        intro k n' k' h
        cases n' with
        | zero => simp [List.replicate_succ] at h
        | succ n' =>
          simp only [List.replicate_succ, List.cons_append, List.cons.injEq, true_and] at h
          obtain ⟨h1, h2⟩ := ih h
          exact ⟨by omega, h2⟩
    cases a with
    | nan => cases b with
      | nan => rfl
      | inf s => cases s <;> simp [exFltText] at h
      | fin s m _ => cases s <;> simp [exFltText] at h
    | inf s => cases b with
      | nan => cases s <;> simp [exFltText] at h
      | inf s' => cases s <;> cases s' <;> simp [exFltText] at h <;> rfl
      | fin s' m hm =>
        simp only [exFltText, List.cons.injEq] at h
        have := h.2.1
        exact absurd this (by split <;> decide)
    | fin s m hm => cases b with
      | nan => cases s <;> simp [exFltText] at h
      | inf s' =>
        simp only [exFltText, List.cons.injEq] at h
        have := h.2.1
        exact absurd this (by split <;> decide)
      | fin s' m' hm' =>
        simp only [exFltText, List.cons.injEq] at h
        obtain ⟨h1, h2, h3⟩ := h
        obtain ⟨h3, h4⟩ := rep h3
        have hs : s = s' := by revert h1; cases s <;> cases s' <;> decide
        have hn : m.num = m'.num := by
          have e1 : m < 0 ↔ m.num < 0 := Rat.num_neg.symm
          have e2 : m' < 0 ↔ m'.num < 0 := Rat.num_neg.symm
          by_cases c1 : m < 0 <;> by_cases c2 : m' < 0 <;> simp [c1, c2] at h2 <;> simp only [e1, e2] at c1 c2 <;> omega
        have : m = m' := Rat.ext hn h4
        subst this; subst hs; rfl
  noComma a := by
    simp only [Disp.fmt, String.toList_ofList]
    cases a with
    | nan => decide
    | inf s => cases s <;> decide
    | fin s m h =>
      simp only [exFltText, List.mem_cons, List.mem_append, List.mem_replicate, not_or]
      refine ⟨by split <;> decide, by split <;> decide, by simp, by decide, by simp⟩

/-- ten bins from 0.1 to 1.3: the second bin is below the third -/
example (b b' : BinInterval F64) (h : exTen.bin 2 = .ok (some b)) (h' : exTen.bin 3 = .ok (some b')) : POrd.le b b' = true :=
  ((C60_uniform_float_bins_order exTen_new (by decide +kernel) (by decide +kernel) (by decide) (by decide) (by decide +kernel) (by decide +kernel)).1
    2 3 b b' (by decide) (by decide) (by decide) h h').1
example (b b' : BinInterval F64) (h : exTen.bin 2 = .ok (some b)) (h' : exTen.bin 3 = .ok (some b')) : POrd.lt b b' = true :=
  C60_uniform_float_bins_strict exTen_new (by decide +kernel) (by decide +kernel) (by decide) (by decide) (by decide +kernel) (by decide +kernel)
    (by decide +kernel) (by decide) (by decide) (by decide) h h'
example (b b' : BinInterval F64) (h : exTen.bin 11 = .ok (some b)) (h' : exTen.bin 3 = .ok (some b')) : Disp.fmt none b ≠ Disp.fmt none b' := by
  rw [Ne, C70_uniform_float (exFlt_plain none) exTen_new (by decide +kernel) (by decide +kernel) (by decide) (by decide) (by decide +kernel) (by decide +kernel)
    (by decide +kernel) h h']
  decide
end
end NdHist.Examples
