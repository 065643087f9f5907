import Verif.Model.FloatText
import Verif.SpecText
import Verif.Props.Labels
import Verif.Props.LabelsInt
import Verif.Props.OrderFloat
import Verif.Props.DisplayExact
/-!
# C93: printed numbers
-/
set_option linter.unusedSectionVars false
namespace NdHist

theorem pow10_eq (e : Int) : pow10 e = (10 : ℚ) ^ e := by
  cases e with
  | ofNat n => simp [pow10]
  | negSucc n => simp [pow10, Rat.mkRat_eq_div, zpow_negSucc]

theorem pow10_pos (e : Int) : 0 < pow10 e := by rw [pow10_eq]; positivity

/-! ## Decimal numerals -/

theorem toDigits_isDigit {n : Nat} {c : Char} (h : c ∈ Nat.toDigits 10 n) : c.isDigit = true := Nat.isDigit_of_mem_toDigits (by decide) (by decide) h

theorem paddedDigits_length {k m : Nat} (hk : 0 < k) (hm : m < 10 ^ k) : (paddedDigits k m).length = k := by
  have : (Nat.toDigits 10 m).length ≤ k := (Nat.length_toDigits_le_iff (by decide) hk).2 hm
  unfold paddedDigits
  rw [List.length_append, List.length_replicate]; omega

theorem paddedDigits_value (k m : Nat) : Nat.ofDigitChars 10 (paddedDigits k m) 0 = m := by
  unfold paddedDigits
  rw [Nat.ofDigitChars_append, Nat.ofDigitChars_replicate_zero, Nat.mul_zero, Nat.ofDigitChars_ten_toDigits]

theorem paddedDigits_isDigit {k m : Nat} {c : Char} (h : c ∈ paddedDigits k m) : c.isDigit = true := by
  unfold paddedDigits at h
  rcases List.mem_append.1 h with h | h
  · rw [List.eq_of_mem_replicate h]; decide
  · exact toDigits_isDigit h

theorem decimalChars_mem {n k : Nat} {c : Char} (h : c ∈ decimalChars n k) : c.isDigit = true ∨ c = '.' := by
  unfold decimalChars at h
  rcases List.mem_append.1 h with h | h
  · exact .inl (toDigits_isDigit h)
  · split at h
    · simp at h
    · rcases List.mem_cons.1 h with h | h
      · exact .inr h
      · exact .inl (paddedDigits_isDigit h)

theorem decimalChars_head (n k : Nat) : ∃ c l, decimalChars n k = c :: l ∧ c.isDigit = true := by
  cases h : Nat.toDigits 10 (n / 10 ^ k) with
  | nil => exact absurd h Nat.toDigits_ne_nil
  | cons c l => exact ⟨c, _, by unfold decimalChars; rw [h]; rfl, toDigits_isDigit (by rw [h]; simp)⟩

theorem takeWhile_digits {a b : List Char} (h : ∀ c ∈ a, c.isDigit = true) :
    (a ++ '.' :: b).takeWhile (· ≠ '.') = a ∧ (a ++ '.' :: b).dropWhile (· ≠ '.') = '.' :: b := by
  induction a with
  | nil => simp
  | cons c a ih =>
    have hc : c ≠ '.' := by rintro rfl; exact absurd (h '.' (by simp)) (by decide)
    obtain ⟨h1, h2⟩ := ih fun c hc => h c (by simp [hc])
    have hp : decide (c ≠ '.') = true := by simpa using hc
    rw [List.cons_append]
    exact ⟨by rw [List.takeWhile_cons, if_pos hp, h1], by rw [List.dropWhile_cons, if_pos hp, h2]⟩

theorem takeWhile_digits' {a : List Char} (h : ∀ c ∈ a, c.isDigit = true) : a.takeWhile (· ≠ '.') = a ∧ a.dropWhile (· ≠ '.') = [] := by
  induction a with
  | nil => exact ⟨rfl, rfl⟩
  | cons c a ih =>
    have hc : c ≠ '.' := by rintro rfl; exact absurd (h '.' (by simp)) (by decide)
    obtain ⟨h1, h2⟩ := ih fun c hc => h c (by simp [hc])
    have hp : decide (c ≠ '.') = true := by simpa using hc
    exact ⟨by rw [List.takeWhile_cons, if_pos hp, h1], by rw [List.dropWhile_cons, if_pos hp, h2]⟩

/-- reading the numeral of `n / 10^k` -/
theorem readDecimal_decimalChars (n k : Nat) : readDecimal (decimalChars n k) = (n : ℚ) / 10 ^ k := by
  unfold readDecimal decimalChars
  by_cases hk : k = 0
  · subst hk
    obtain ⟨h1, h2⟩ := takeWhile_digits' (a := Nat.toDigits 10 (n / 10 ^ 0)) fun c hc => toDigits_isDigit hc
    simp only [if_pos, List.append_nil, h1, h2]
    rw [Nat.ofDigitChars_ten_toDigits]
    simp [Nat.ofDigitChars_nil]
  · obtain ⟨h1, h2⟩ := takeWhile_digits (a := Nat.toDigits 10 (n / 10 ^ k)) (b := paddedDigits k (n % 10 ^ k)) fun c hc => toDigits_isDigit hc
    simp only [if_neg hk, h1, h2, List.drop_one, List.tail_cons]
    rw [paddedDigits_length (by omega) (Nat.mod_lt _ (by positivity)), paddedDigits_value, Nat.ofDigitChars_ten_toDigits]
    rw [eq_div_iff (by positivity), add_mul, div_mul_cancel₀ _ (by positivity)]
    have := Nat.div_add_mod n (10 ^ k)
    rw [Nat.mul_comm] at this
    exact_mod_cast this

/-! ## The shortest decimal -/

namespace FFmt
variable {F : FFmt} {x : ℚ}

theorem digitsAt_spec {e : Int} {d : Nat} (h : F.digitsAt x e = some d) : F.rnd (d * pow10 e) = x := by
  unfold digitsAt at h
  simp only [Bool.and_eq_true, decide_eq_true_eq] at h
  split at h
  · cases h; rename_i h'; exact h'.1
  · split at h
    · cases h; assumption
    · cases h

/-- a number of the format is a multiple of `10^-maxDecimals` -/
theorem exact_decimal (hx : F.Rep x) : ∃ d : Nat, x = d * pow10 (-(F.maxDecimals : Int)) := by
  obtain ⟨m, e, h1, -, h2, -⟩ := hx
  have hq : F.qmin ≤ 0 := by unfold qmin; have := F.emin_le; have := F.p_ge; omega
  have hB : (F.maxDecimals : Int) = -F.qmin := by unfold maxDecimals; omega
  obtain ⟨k, hk⟩ : ∃ k : Nat, e = F.qmin + k := ⟨(e - F.qmin).toNat, by omega⟩
  refine ⟨m * 2 ^ k * 5 ^ F.maxDecimals, ?_⟩
  have h25 : (2 : ℚ) ^ (-(F.maxDecimals : ℤ)) = 5 ^ F.maxDecimals * 10 ^ (-(F.maxDecimals : ℤ)) := by
    rw [zpow_neg, zpow_neg, zpow_natCast, zpow_natCast, show (10 : ℚ) = 5 * 2 by norm_num, mul_pow]
    field_simp
  rw [h1, hk, pow2_add, pow2_nat, pow10_eq, pow2_eq, ← neg_neg F.qmin, ← hB, h25]
  push_cast
  ring

theorem digitsFrom_rnd (hx : F.Rep x) (n : Nat) : ∀ e : Int, e - n = -(F.maxDecimals : Int) → F.rnd ((F.digitsFrom x n e).1 * pow10 (F.digitsFrom x n e).2) = x := by
  induction n with
  | zero =>
    intro e he
    obtain ⟨d, hd⟩ := exact_decimal hx
    have he : e = -(F.maxDecimals : Int) := by simpa using he
    subst he
    have hf : ⌊x / pow10 (-(F.maxDecimals : Int))⌋.toNat = d := by
      have : x / pow10 (-(F.maxDecimals : Int)) = d := by rw [div_eq_iff (pow10_pos _).ne']; exact hd
      rw [this]; simp
    show F.rnd (((⌊x / pow10 (-(F.maxDecimals : Int))⌋.toNat : Nat) : ℚ) * pow10 (-(F.maxDecimals : Int))) = x
    rw [hf, ← hd]
    exact F.rnd_repU hx.repU
  | succ n ih =>
    intro e he
    unfold digitsFrom
    cases hd : F.digitsAt x e with
    | some d => exact digitsAt_spec hd
    | none => exact ih (e - 1) (by push_cast at he; omega)

theorem shortestDigits_rnd (hx : F.Rep x) : F.rnd ((F.shortestDigits x).1 * pow10 (F.shortestDigits x).2) = x := by
  unfold shortestDigits
  exact digitsFrom_rnd hx _ _ (by push_cast; omega)

theorem shortestChars_read (hx : F.Rep x) : F.rnd (readDecimal (F.shortestChars x)) = x := by
  unfold shortestChars
  split
  · rename_i h; rw [readDecimal_decimalChars, h]; simp [F.rnd_zero]
  · have h := shortestDigits_rnd hx
    rcases he : F.shortestDigits x with ⟨d, e⟩
    rw [he] at h
    simp only at h ⊢
    split
    · rename_i h0
      rw [readDecimal_decimalChars]
      have : ((d * 10 ^ e.toNat : Nat) : ℚ) / 10 ^ 0 = d * pow10 e := by
        rw [pow10_eq]
        conv_rhs => rw [← Int.toNat_of_nonneg h0]
        rw [zpow_natCast]; push_cast; ring
      rw [this, h]
    · rename_i h0
      rw [readDecimal_decimalChars]
      have : ((d : Nat) : ℚ) / 10 ^ (-e).toNat = d * pow10 e := by
        rw [pow10_eq, div_eq_mul_inv, ← zpow_natCast, ← zpow_neg, Int.toNat_of_nonneg (by omega), neg_neg]
      rw [this, h]

theorem shortestChars_form (x : ℚ) : ∃ n k, F.shortestChars x = decimalChars n k := by
  unfold shortestChars
  split
  · exact ⟨_, _, rfl⟩
  · rcases F.shortestDigits x with ⟨d, e⟩
    simp only
    split
    · exact ⟨_, _, rfl⟩
    · exact ⟨_, _, rfl⟩
end FFmt

theorem readFloat_decimal {F : FFmt} (s : Bool) (n k : Nat) :
    readFloat (F := F) (String.ofList ((if s then ['-'] else []) ++ decimalChars n k)) = Flt.round s (readDecimal (decimalChars n k)) (readDecimal_nonneg _) := by
  obtain ⟨c, l, h, hc⟩ := decimalChars_head n k
  have h1 : c ≠ 'N' := by rintro rfl; exact absurd hc (by decide)
  have h2 : c ≠ 'i' := by rintro rfl; exact absurd hc (by decide)
  have h3 : c ≠ '-' := by rintro rfl; exact absurd hc (by decide)
  unfold readFloat
  rw [String.toList_ofList]
  cases s
  · simp only [Bool.false_eq_true, if_false, List.nil_append, h]
    split <;> simp_all
  · simp only [if_true, List.cons_append, List.nil_append, h]
    split <;> simp_all

/-- **C93 (reading back).** What `{}` prints of a float reads back as the same float, the sign of zero, infinities and NaN included. -/
theorem C93_reads_back {F : FFmt} (x : Flt F) : readFloat (Flt.text.fmt none x) = x := by
  show readFloat (String.ofList (x.chars none)) = x
  cases x with
  | nan => unfold readFloat; rw [String.toList_ofList]; rfl
  | inf s => unfold readFloat; rw [String.toList_ofList]; cases s <;> rfl
  | fin s m h =>
    obtain ⟨n, k, e⟩ := FFmt.shortestChars_form (F := F) m
    show readFloat (String.ofList ((if s then ['-'] else []) ++ F.shortestChars m)) = _
    rw [e, readFloat_decimal]
    have := FFmt.shortestChars_read h
    rw [e] at this
    unfold Flt.round
    simp only [this, h.le_maxFin, dif_pos]

theorem chars_noComma {F : FFmt} (p : Option Nat) (x : Flt F) : ',' ∉ x.chars p := by
  have hs : ∀ s : Bool, ',' ∉ (if s then ['-'] else [] : List Char) := by intro s; cases s <;> decide
  have hd : ∀ n k, ',' ∉ decimalChars n k := fun n k h => by
    rcases decimalChars_mem h with h | h <;> exact absurd h (by decide)
  cases x with
  | nan => simp [Flt.chars]
  | inf s => cases s <;> simp [Flt.chars]
  | fin s m h =>
    intro hc
    rcases List.mem_append.1 hc with hc | hc
    · exact hs s hc
    · cases p with
      | none =>
        obtain ⟨n, k, e⟩ := FFmt.shortestChars_form (F := F) m
        exact hd n k (e ▸ hc)
      | some k => exact hd _ _ hc

/-- **C93 (different numbers print differently).** With `{}`, and without commas. -/
theorem C93_plain_text {F : FFmt} : @PlainText (Flt F) Flt.text none :=
  @PlainText.mk _ Flt.text none (fun a b h => by rw [← C93_reads_back a, ← C93_reads_back b]; exact congrArg _ h)
    (fun a => by show ',' ∉ (String.ofList _).toList; rw [String.toList_ofList]; exact chars_noComma none a)
end NdHist
