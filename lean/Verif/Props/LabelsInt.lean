import Std.Data.String.ToInt
import Verif.Props.Labels
/-!
# C70 for integers in decimal

How `std` prints an integer with `{}`: a minus sign for negative numbers and the decimal digits without leading zeros; a precision has no effect.
-/
namespace NdHist

/-- `impl fmt::Display` for the integer types (core::fmt::num; std, not part of the repository): decimal digits with a minus sign if negative; the precision is ignored. -/
@[reducible] def MInt.decimal {τ : IntTy} : Disp (MInt τ) := ⟨fun _ x => x.val.repr⟩

theorem digit_ne_comma {n : Nat} {c : Char} (h : c ∈ (Nat.repr n).toList) : c.isDigit = true := by
  rw [Nat.toList_repr] at h
  exact Nat.isDigit_of_mem_toDigits (by decide) (by decide) h

/-- **C70 (integers).** Integers print differently if they are different, without comma, and never as `inf`. -/
theorem C70_decimal {τ : IntTy} (p : Option Nat) : @PlainText (MInt τ) MInt.decimal p ∧ ∀ x : MInt τ, MInt.decimal.fmt p x ≠ "inf" := by
  have hch : ∀ x : MInt τ, ∀ c ∈ (MInt.decimal.fmt p x).toList, c = '-' ∨ c.isDigit = true := by
    intro x c hc
    have hc : c ∈ (Int.repr x.val).toList := hc
    unfold Int.repr at hc
    split at hc
    · exact .inr (digit_ne_comma hc)
    · rw [String.toList_append] at hc
      rcases List.mem_append.1 hc with h | h
      · exact .inl (by simpa using h)
      · exact .inr (digit_ne_comma h)
  refine ⟨@PlainText.mk _ MInt.decimal p (fun a b h => MInt.ext (Int.repr_injective h)) fun a hc => ?_, fun x h => ?_⟩
  · rcases hch a _ hc with h | h
    · exact absurd h (by decide)
    · exact absurd h (by decide)
  · have := hch x 'i' (by rw [h]; decide)
    revert this; decide

/-- **C70 (intervals of integers).** Two intervals with integer end points print the same exactly if they are equal. -/
theorem C70_bin_interval_int {τ : IntTy} (p : Option Nat) (b b' : BinInterval (MInt τ)) :
    letI : Disp (MInt τ) := MInt.decimal
    Disp.fmt p b = Disp.fmt p b' ↔ b = b' := by
  letI : Disp (MInt τ) := MInt.decimal
  obtain ⟨h1, h2⟩ := C70_decimal (τ := τ) p
  show Disp.fmt p b = Disp.fmt p b' ↔ b = b'
  rw [C70_bin_interval h1]
  constructor
  · rintro (h | ⟨s, e, h, -⟩)
    · exact h
    · exact absurd h (h2 e)
  · exact .inl
end NdHist
