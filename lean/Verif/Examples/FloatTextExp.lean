import Verif.Props.FloatTextExp
import Verif.Examples.FloatText
/-! # Examples: C93, numbers with an exponent -/
namespace NdHist.Examples

-- the texts that std prints
example : (Flt.expText false).fmt none (f64 0.1) = "1e-1" := by decide +kernel
example : (Flt.expText true).fmt none (f64 123456) = "1.23456E5" := by decide +kernel
example : (Flt.expText false).fmt (some 2) (Flt.zero false : F64) = "0.00e0" := by decide +kernel
example : (Flt.expText false).fmt (some 2) (f64 (-9.9999)) = "-1.00e1" := by decide +kernel
example : (Flt.expText false).fmt none (f64 (5e-324)) = "5e-324" := by decide +kernel
example : (Flt.expText false).fmt (some 0) (f64 2.5) = "2e0" := by decide +kernel
example : (MInt.expText false).fmt none (MInt.lit (-12000) : MInt .i32) = "-1.2e4" := by decide +kernel
example : (MInt.expText false).fmt none (MInt.lit 0 : MInt .i32) = "0e0" := by decide +kernel
example : (MInt.expText true).fmt (some 1) (MInt.lit 99 : MInt .u8) = "9.9E1" := by decide +kernel
example : (MInt.expText true).fmt (some 0) (MInt.lit 99 : MInt .u8) = "1E2" := by decide +kernel

example : readFloatExp ((Flt.expText true).fmt none (f64 0.1)) = f64 0.1 := C93_exp_reads_back _ _
example (x y : F64) (h : x ≠ y) : (Flt.expText false).fmt none x ≠ (Flt.expText false).fmt none y := fun h' => h ((@PlainText.inj _ (Flt.expText false) none (C93_exp_plain_text _)) x y h')
example : readSigned ((MInt.expText false).fmt none (MInt.lit (-12000) : MInt .i32)).toList = -12000 := by
  have h := (C93_exp_int false).1 (MInt.lit (-12000) : MInt .i32)
  rw [h]; decide +kernel
-- 0.1 with three digits: within half a unit in the third
example : ∃ (a b : List Char) (n : Nat) (e : ℤ), (Flt.expText false).fmt (some 2) (.fin true _ rep_tenth) = String.ofList (['-'] ++ (a ++ 'e' :: b)) ∧
    readDecimal a = n / 10 ^ 2 ∧ 10 ^ 2 ≤ n ∧ n < 10 ^ 3 ∧ readInt b = e + 2 ∧ |(n : ℚ) * (10 : ℚ) ^ e - 3602879701896397 * pow2 (-55)| ≤ 3602879701896397 * pow2 (-55) / (2 * 10 ^ 2) := by
  obtain ⟨a, b, n, e, h1, h2, h3, h4, -, h6, h7, -⟩ := C93_exp_precision false 2 true _ rep_tenth (by decide +kernel)
  exact ⟨a, b, n, e, h1, h2, h3, h4, h6, h7⟩
-- no shorter decimal than the `1` of `1e-1` reads as 0.1
example : ∃ (a b : List Char) (d : Nat) (e : ℤ), (Flt.expText true).fmt none (.fin false _ rep_tenth) = String.ofList ([] ++ (a ++ 'E' :: b)) ∧
    1 ≤ readDecimal a ∧ readDecimal a * (10 : ℚ) ^ readInt b = d * (10 : ℚ) ^ e ∧ d % 10 ≠ 0 := by
  obtain ⟨a, b, d, e, h1, h2, -, h4, -, h6, -⟩ := C93_exp_shortest true false _ rep_tenth (by decide +kernel)
  exact ⟨a, b, d, e, h1, h2, h4, h6⟩
example : (Flt.expText false).fmt (some 3) (Flt.zero true : F64) = "-0.000e0" := (C93_exp_zero false true 3).2
-- 99 with two digits
example : ∃ (a b : List Char) (n : Nat) (e : ℤ), (MInt.expText true).fmt (some 1) (MInt.lit 99 : MInt .u8) = String.ofList ([] ++ (a ++ 'E' :: b)) ∧
    readDecimal a = n / 10 ^ 1 ∧ 10 ^ 1 ≤ n ∧ n < 10 ^ 2 := by
  obtain ⟨a, b, n, e, h1, h2, h3, h4, -⟩ := C93_exp_int_precision true 1 (MInt.lit 99 : MInt .u8) (by decide)
  exact ⟨a, b, n, e, h1, h2, h3, h4⟩

section
attribute [local instance] dbg64 stdNew

example : letI : Disp F64 := Flt.expText true
    Disp.fmt none (.Overflow (f64 1) : BinInterval F64) = Disp.fmt none (.Bin (f64 1) (.inf false) : BinInterval F64) :=
  (C93_exp_labels true _ _).2 (.inr ⟨_, .inl ⟨rfl, rfl⟩⟩)
example : letI : Disp F64 := Flt.expText false
    Disp.fmt none (.Bin (f64 0) (f64 0.1) : BinInterval F64) = "[0e0, 1e-1)" := by decide +kernel
-- 1.001 and 1.004 are printed the same with three digits
example : (BinInterval.Bin (f64 1.001) (f64 2)).EndsRel (1 / (2 * 10 ^ 2)) (.Bin (f64 1.004) (f64 2)) :=
  C93_exp_label_precision false 2 (b := .Bin (f64 1.001) (f64 2)) (b' := .Bin (f64 1.004) (f64 2)) ⟨by decide +kernel, by decide +kernel⟩ ⟨by decide +kernel, by decide +kernel⟩ (by decide +kernel)
example (b b' : BinInterval F64) (h : exVText.bin 1 = .ok (some b)) (h' : exVText.bin 2 = .ok (some b')) :
    letI : Disp F64 := Flt.expText false
    Disp.fmt (some 1) b ≠ Disp.fmt (some 1) b' := by
  intro he
  exact absurd ((C93_exp_variable_precision false 1 exVText_new (by decide) (by decide +kernel) (by decide +kernel) h h').1 he) (by decide)
end
end NdHist.Examples
