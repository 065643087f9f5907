import Verif.Model.FloatTextExp
import Verif.Props.FloatTextPrec
/-!
# C93: numbers printed with an exponent
-/
set_option linter.unusedSectionVars false
namespace NdHist

/-! ## Reading -/

theorem readInt_intChars (z : Int) : readInt (intChars z) = z := by
  unfold intChars
  by_cases hz : z < 0
  · rw [if_pos hz]
    show -((Nat.ofDigitChars 10 (Nat.toDigits 10 z.natAbs) 0 : Nat) : ℤ) = z
    rw [Nat.ofDigitChars_ten_toDigits]; omega
  · rw [if_neg hz, List.nil_append]
    have key : ∀ l : List Char, (∀ c ∈ l, c.isDigit = true) → readInt l = (Nat.ofDigitChars 10 l 0 : ℤ) := by
      intro l hl
      unfold readInt
      split
      · exact absurd (hl '-' (by simp)) (by decide)
      · rfl
    rw [key _ fun c hc => toDigits_isDigit hc, Nat.ofDigitChars_ten_toDigits]; omega

theorem expMark_eq (u : Bool) : expMark u = 'e' ∨ expMark u = 'E' := by cases u <;> simp [expMark]

theorem takeWhile_mark {a b : List Char} (h : ∀ c ∈ a, c.isDigit = true ∨ c = '.') (u : Bool) :
    (a ++ expMark u :: b).takeWhile (fun c => c ≠ 'e' ∧ c ≠ 'E') = a ∧ (a ++ expMark u :: b).dropWhile (fun c => c ≠ 'e' ∧ c ≠ 'E') = expMark u :: b := by
  induction a with
  | nil => cases u <;> simp [expMark]
  | cons c a ih =>
    have h1 : c ≠ 'e' := by rintro rfl; exact absurd (h 'e' (by simp)) (by decide)
    have h2 : c ≠ 'E' := by rintro rfl; exact absurd (h 'E' (by simp)) (by decide)
    obtain ⟨i1, i2⟩ := ih fun c hc => h c (by simp [hc])
    have hp : decide (c ≠ 'e' ∧ c ≠ 'E') = true := by simpa using ⟨h1, h2⟩
    rw [List.cons_append]
    exact ⟨by rw [List.takeWhile_cons, if_pos hp, i1], by rw [List.dropWhile_cons, if_pos hp, i2]⟩

/-- reading a number with an exponent -/
theorem readSci_sciChars (u : Bool) (n k : Nat) (e : Int) : readSci (sciChars u n k e) = n * (10 : ℚ) ^ e := by
  unfold readSci sciChars
  obtain ⟨h1, h2⟩ := takeWhile_mark (a := decimalChars n k) (b := intChars (e + k)) (fun c hc => decimalChars_mem hc) u
  rw [h1, h2, List.drop_one, List.tail_cons, readInt_intChars, readDecimal_decimalChars, zpow_add₀ (by norm_num), zpow_natCast]
  field_simp

theorem readSci_sciAll (u : Bool) (n : Nat) (e : Int) : readSci (sciAll u n e) = n * (10 : ℚ) ^ e := readSci_sciChars ..

theorem sciChars_head (u : Bool) (n k : Nat) (e : Int) : ∃ c l, sciChars u n k e = c :: l ∧ c.isDigit = true := by
  obtain ⟨c, l, h, hc⟩ := decimalChars_head n k
  exact ⟨c, _, by unfold sciChars; rw [h]; rfl, hc⟩

theorem intChars_mem {z : Int} {c : Char} (h : c ∈ intChars z) : c.isDigit = true ∨ c = '-' := by
  unfold intChars at h
  rcases List.mem_append.1 h with h | h
  · split at h
    · exact .inr (by simpa using h)
    · simp at h
  · exact .inl (toDigits_isDigit h)

theorem sciChars_noComma (u : Bool) (n k : Nat) (e : Int) : ',' ∉ sciChars u n k e := by
  intro h
  unfold sciChars at h
  rcases List.mem_append.1 h with h | h
  · rcases decimalChars_mem h with h | h <;> exact absurd h (by decide)
  · rcases List.mem_cons.1 h with h | h
    · cases u <;> exact absurd h (by decide)
    · rcases intChars_mem h with h | h <;> exact absurd h (by decide)

theorem readFloatExp_sci {F : FFmt} (s u : Bool) (n k : Nat) (e : Int) :
    readFloatExp (F := F) (String.ofList ((if s then ['-'] else []) ++ sciChars u n k e)) = Flt.round s (readSci (sciChars u n k e)) (readSci_nonneg _) := by
  obtain ⟨c, l, h, hc⟩ := sciChars_head u n k e
  have h1 : c ≠ 'N' := by rintro rfl; exact absurd hc (by decide)
  have h2 : c ≠ 'i' := by rintro rfl; exact absurd hc (by decide)
  have h3 : c ≠ '-' := by rintro rfl; exact absurd hc (by decide)
  unfold readFloatExp
  rw [String.toList_ofList]
  cases s
  · simp only [Bool.false_eq_true, if_false, List.nil_append, h]
    split <;> simp_all
  · simp only [if_true, List.cons_append, List.nil_append, h]
    split <;> simp_all

/-- the text of a finite magnitude -/
theorem expChars_form {F : FFmt} (u : Bool) (p : Option Nat) (s : Bool) (m : ℚ) (hm : F.Rep m) :
    ∃ n k e, (Flt.fin s m hm).expChars u p = (if s then ['-'] else []) ++ sciChars u n k e := by
  by_cases h0 : m = 0
  · cases p with
    | none => exact ⟨0, (Nat.toDigits 10 0).length - 1, 0, by simp only [Flt.expChars, if_pos h0]; rfl⟩
    | some k => exact ⟨0, k, -k, by simp only [Flt.expChars, sciPrec, if_pos h0]⟩
  · cases p with
    | none => exact ⟨(F.shortestDigits m).1, (Nat.toDigits 10 (F.shortestDigits m).1).length - 1, (F.shortestDigits m).2, by simp only [Flt.expChars, if_neg h0]; rfl⟩
    | some k => exact ⟨(leadingDigits k m).1, k, (leadingDigits k m).2, by simp only [Flt.expChars, sciPrec, if_neg h0]⟩

/-- **C93 (reading back, with an exponent).** What `{:e}` or `{:E}` prints of a float reads back as the same float, the sign of zero, infinities and NaN included. -/
theorem C93_exp_reads_back {F : FFmt} (upper : Bool) (x : Flt F) : readFloatExp ((Flt.expText upper).fmt none x) = x := by
  show readFloatExp (String.ofList (x.expChars upper none)) = x
  cases x with
  | nan => unfold readFloatExp; rw [String.toList_ofList]; rfl
  | inf s => unfold readFloatExp; rw [String.toList_ofList]; cases s <;> rfl
  | fin s m h =>
    by_cases h0 : m = 0
    · subst h0
      simp only [Flt.expChars, if_true]
      unfold sciAll
      rw [readFloatExp_sci]
      unfold Flt.round
      have : F.rnd (readSci (sciChars upper 0 ((Nat.toDigits 10 0).length - 1) 0)) = 0 := by rw [readSci_sciChars]; simp [F.rnd_zero]
      simp only [this, h.le_maxFin, dif_pos]
    · simp only [Flt.expChars, if_neg h0]
      unfold sciAll
      rw [readFloatExp_sci]
      have hr := FFmt.shortestDigits_rnd h
      rw [pow10_eq] at hr
      unfold Flt.round
      have : F.rnd (readSci (sciChars upper (F.shortestDigits m).1 ((Nat.toDigits 10 (F.shortestDigits m).1).length - 1) (F.shortestDigits m).2)) = m := by rw [readSci_sciChars]; exact hr
      simp only [this, h.le_maxFin, dif_pos]

theorem expChars_noComma {F : FFmt} (u : Bool) (p : Option Nat) (x : Flt F) : ',' ∉ x.expChars u p := by
  cases x with
  | nan => simp [Flt.expChars]
  | inf s => cases s <;> simp [Flt.expChars]
  | fin s m h =>
    obtain ⟨n, k, e, he⟩ := expChars_form u p s m h
    rw [he]
    intro hc
    rcases List.mem_append.1 hc with hc | hc
    · cases s <;> simp at hc
    · exact sciChars_noComma _ _ _ _ hc

/-- **C93 (different numbers print differently, with an exponent).** With `{:e}` and `{:E}`, and without commas. -/
theorem C93_exp_plain_text {F : FFmt} (upper : Bool) : @PlainText (Flt F) (Flt.expText upper) none :=
  @PlainText.mk _ (Flt.expText upper) none (fun a b h => by rw [← C93_exp_reads_back upper a, ← C93_exp_reads_back upper b]; exact congrArg _ h)
    (fun a => by show ',' ∉ (String.ofList _).toList; rw [String.toList_ofList]; exact expChars_noComma upper none a)

/-- **C93 (labels with an exponent).** With `{:e}` and `{:E}`, two float intervals print the same exactly if they are equal, or one is an overflow bin and the other a bin with the same start that ends at infinity. -/
theorem C93_exp_labels {F : FFmt} (upper : Bool) (b b' : BinInterval (Flt F)) :
    letI : Disp (Flt F) := Flt.expText upper
    Disp.fmt none b = Disp.fmt none b' ↔ b = b' ∨ ∃ s, b = .Overflow s ∧ b' = .Bin s (.inf false) ∨ b = .Bin s (.inf false) ∧ b' = .Overflow s := by
  let _ : Disp (Flt F) := Flt.expText upper
  have hinf : ∀ e : Flt F, Disp.fmt none e = "inf" ↔ e = .inf false := by
    intro e
    constructor
    · intro h; exact (C93_exp_plain_text upper).inj e (.inf false) (by rw [h]; rfl)
    · rintro rfl; rfl
  rw [C70_bin_interval (C93_exp_plain_text upper)]
  constructor
  · rintro (h | ⟨s, e, h, h1⟩)
    · exact .inl h
    · rw [hinf] at h; subst h; exact .inr ⟨s, h1⟩
  · rintro (h | ⟨s, h⟩)
    · exact .inl h
    · exact .inr ⟨s, .inf false, (hinf _).2 rfl, h⟩

/-! ## Integers -/

theorem stripZeros_value (fuel n : Nat) : (stripZeros fuel n).1 * 10 ^ (stripZeros fuel n).2 = n := by
  induction fuel generalizing n with
  | zero => simp [stripZeros]
  | succ fuel ih =>
    unfold stripZeros
    split
    · rename_i h
      have := ih (n / 10)
      simp only
      rw [pow_succ, ← mul_assoc, this]; omega
    · simp

theorem stripZeros_last (fuel n : Nat) (h : n ≤ fuel) : (stripZeros fuel n).1 < 10 ∨ (stripZeros fuel n).1 % 10 ≠ 0 := by
  induction fuel generalizing n with
  | zero => left; simp [stripZeros]; omega
  | succ fuel ih =>
    unfold stripZeros
    split
    · rename_i hh; exact ih (n / 10) (by omega)
    · simp only; omega

/-- the value of a signed text -/
def readSigned : List Char → ℚ
  | '-' :: l => -readSci l
  | l => readSci l

theorem readSigned_sci (s : Bool) (u : Bool) (n k : Nat) (e : Int) : readSigned ((if s then ['-'] else []) ++ sciChars u n k e) = (if s then -1 else 1) * (n * (10 : ℚ) ^ e) := by
  obtain ⟨c, l, h, hc⟩ := sciChars_head u n k e
  have h3 : c ≠ '-' := by rintro rfl; exact absurd hc (by decide)
  have hr := readSci_sciChars u n k e
  cases s
  · simp only [Bool.false_eq_true, if_false, List.nil_append, one_mul]
    rw [← hr]
    rw [h]
    unfold readSigned
    split <;> simp_all
  · simp only [if_true, List.cons_append, List.nil_append]
    show -readSci (sciChars u n k e) = _
    rw [hr]; ring

/-- **C93 (integers with an exponent).** What `{:e}` or `{:E}` prints of an integer reads back as the same integer, so different integers print differently; the last of the digits printed is not zero, unless it is
the only one. -/
theorem C93_exp_int {τ : IntTy} (upper : Bool) :
    (∀ x : MInt τ, readSigned ((MInt.expText upper).fmt none x).toList = x.val) ∧
    (∀ x : MInt τ, ∃ (a b : List Char) (d : Nat), ((MInt.expText upper).fmt none x).toList = (if x.val < 0 then ['-'] else []) ++ (a ++ (if upper then 'E' else 'e') :: b) ∧
      readDecimal a = d / 10 ^ ((Nat.toDigits 10 d).length - 1) ∧ ((a.dropWhile (· ≠ '.')).drop 1).length + 1 = (Nat.toDigits 10 d).length ∧ (d < 10 ∨ d % 10 ≠ 0)) ∧
    @PlainText (MInt τ) (MInt.expText upper) none ∧ ∀ x : MInt τ, (MInt.expText upper).fmt none x ≠ "inf" := by
  have form : ∀ x : MInt τ, ((MInt.expText upper).fmt none x).toList = (if decide (x.val < 0) = true then ['-'] else []) ++
      sciAll upper (stripZeros x.val.natAbs x.val.natAbs).1 (stripZeros x.val.natAbs x.val.natAbs).2 := by
    intro x
    show (String.ofList (x.expChars upper none)).toList = _
    rw [String.toList_ofList]
    unfold MInt.expChars
    simp
  have read : ∀ x : MInt τ, readSigned ((MInt.expText upper).fmt none x).toList = x.val := by
    intro x
    rw [form]
    unfold sciAll
    rw [readSigned_sci]
    have h := stripZeros_value x.val.natAbs x.val.natAbs
    have h' : ((stripZeros x.val.natAbs x.val.natAbs).1 : ℚ) * (10 : ℚ) ^ ((stripZeros x.val.natAbs x.val.natAbs).2 : ℤ) = (x.val.natAbs : ℚ) := by
      rw [zpow_natCast]; exact_mod_cast h
    rw [h']
    by_cases hx : x.val < 0
    · simp only [hx, decide_true, if_true]
      have : (x.val.natAbs : ℚ) = -x.val := by rw [Nat.cast_natAbs, abs_of_neg hx]; push_cast; ring
      rw [this]; ring
    · simp only [hx, decide_false, Bool.false_eq_true, if_false]
      have : (x.val.natAbs : ℚ) = x.val := by rw [Nat.cast_natAbs, abs_of_nonneg (by omega)]
      rw [this]; ring
  refine ⟨read, fun x => ?_, ?_, ?_⟩
  · refine ⟨decimalChars (stripZeros x.val.natAbs x.val.natAbs).1 ((Nat.toDigits 10 (stripZeros x.val.natAbs x.val.natAbs).1).length - 1),
      intChars ((stripZeros x.val.natAbs x.val.natAbs).2 + ((Nat.toDigits 10 (stripZeros x.val.natAbs x.val.natAbs).1).length - 1 : Nat)), (stripZeros x.val.natAbs x.val.natAbs).1, ?_,
      readDecimal_decimalChars _ _, ?_, stripZeros_last _ _ le_rfl⟩
    · rw [form]
      unfold sciAll sciChars expMark
      simp only [decide_eq_true_eq]
    · have h1 : 1 ≤ (Nat.toDigits 10 (stripZeros x.val.natAbs x.val.natAbs).1).length := by
        have := Nat.length_toDigits_pos (b := 10) (n := (stripZeros x.val.natAbs x.val.natAbs).1); omega
      rw [decimalChars_decimals]
      split
      · rename_i h; simp only [List.length_nil]; omega
      · rename_i h
        rw [paddedDigits_length (by omega) (Nat.mod_lt _ (by positivity))]; omega
  · refine @PlainText.mk _ (MInt.expText upper) none (fun a b h => ?_) (fun a => ?_)
    · have h : (MInt.expText upper).fmt none a = (MInt.expText upper).fmt none b := h
      have ha := read a
      rw [h, read b] at ha
      exact MInt.ext (by exact_mod_cast ha.symm)
    · show ',' ∉ ((MInt.expText upper).fmt none a).toList
      rw [form]
      intro hc
      rcases List.mem_append.1 hc with hc | hc
      · split at hc <;> simp at hc
      · exact sciChars_noComma _ _ _ _ hc
  · intro x h
    have h := congrArg String.toList h
    rw [form, show "inf".toList = ['i', 'n', 'f'] by decide] at h
    obtain ⟨c, l, hh, hc⟩ := sciChars_head upper (stripZeros x.val.natAbs x.val.natAbs).1 ((Nat.toDigits 10 (stripZeros x.val.natAbs x.val.natAbs).1).length - 1) (stripZeros x.val.natAbs x.val.natAbs).2
    unfold sciAll at h
    rw [hh] at h
    split at h
    · simp at h
    · simp only [List.nil_append] at h
      have : c = 'i' := by simpa using (List.cons.inj h).1
      subst this
      exact absurd hc (by decide)

/-! ## A given number of digits -/

theorem rne_nearest (y : ℚ) (j : ℤ) : |(rne y : ℚ) - y| ≤ |(j : ℚ) - y| := by
  by_cases h : j = rne y
  · rw [h]
  · have h1 : (1 : ℚ) ≤ |(j : ℚ) - rne y| := by
      have : 1 ≤ |j - rne y| := Int.one_le_abs (sub_ne_zero.2 h)
      exact_mod_cast this
    have h2 := rne_abs y
    have h3 : |(j : ℚ) - rne y| ≤ |(j : ℚ) - y| + |(rne y : ℚ) - y| := by
      rw [show (j : ℚ) - rne y = (j - y) - (rne y - y) by ring]
      exact abs_sub _ _
    linarith

theorem leadingDigits_spec (k : Nat) {x : ℚ} (hx : 0 < x) :
    10 ^ k ≤ (leadingDigits k x).1 ∧ (leadingDigits k x).1 < 10 ^ (k + 1) ∧
    |((leadingDigits k x).1 : ℚ) * (10 : ℚ) ^ (leadingDigits k x).2 - x| ≤ x / (2 * 10 ^ k) ∧
    (∀ (n' : Nat) (e' : ℤ), n' < 10 ^ (k + 1) → |((leadingDigits k x).1 : ℚ) * (10 : ℚ) ^ (leadingDigits k x).2 - x| ≤ |(n' : ℚ) * (10 : ℚ) ^ e' - x|) ∧
    (|((leadingDigits k x).1 : ℚ) * (10 : ℚ) ^ (leadingDigits k x).2 - x| = 1 / 2 * (10 : ℚ) ^ (leadingDigits k x).2 → Even (leadingDigits k x).1) := by
  set E := Int.log 10 x with hE
  have lo : (10 : ℚ) ^ E ≤ x := by have := Int.zpow_log_le_self (b := 10) (by norm_num) hx; exact_mod_cast this
  have hi : x < (10 : ℚ) ^ (E + 1) := by have := Int.lt_zpow_succ_log_self (b := 10) (by norm_num) x; exact_mod_cast this
  set u : ℚ := (10 : ℚ) ^ (E - k) with hu
  have hupos : 0 < u := by positivity
  have eE : (10 : ℚ) ^ E = 10 ^ k * u := by rw [hu, ← zpow_natCast, ← zpow_add₀ (by norm_num)]; congr 1; ring
  have eE1 : (10 : ℚ) ^ (E + 1) = 10 ^ (k + 1) * u := by rw [zpow_add_one₀ (by norm_num), eE]; ring
  set y := x / u with hy
  have hyx : y * u = x := div_mul_cancel₀ _ hupos.ne'
  have ylo : (10 : ℚ) ^ k ≤ y := by rw [hy, le_div_iff₀ hupos, ← eE]; exact lo
  have yhi : y < (10 : ℚ) ^ (k + 1) := by rw [hy, div_lt_iff₀ hupos, ← eE1]; exact hi
  have hab := abs_le.1 (rne_abs y)
  have rlo : (10 : ℤ) ^ k ≤ rne y := by
    by_contra hlt
    push Not at hlt
    have : (rne y : ℚ) + 1 ≤ 10 ^ k := by exact_mod_cast hlt
    linarith [hab.1]
  have rhi : rne y ≤ (10 : ℤ) ^ (k + 1) := by
    by_contra hlt
    push Not at hlt
    have : (10 : ℚ) ^ (k + 1) + 1 ≤ rne y := by exact_mod_cast hlt
    linarith [hab.2]
  have r0 : 0 ≤ rne y := le_trans (by positivity) rlo
  obtain ⟨r, hr⟩ : ∃ r : Nat, rne y = r := ⟨(rne y).toNat, (Int.toNat_of_nonneg r0).symm⟩
  rw [hr] at rlo rhi
  have rlo : 10 ^ k ≤ r := by exact_mod_cast rlo
  have rhi : r ≤ 10 ^ (k + 1) := by exact_mod_cast rhi
  have hL : leadingDigits k x = if r = 10 ^ (k + 1) then (10 ^ k, E - k + 1) else (r, E - k) := by
    unfold leadingDigits
    simp only
    rw [← hE, pow10_eq, ← hu, ← hy, hr, Int.toNat_natCast]
  have val : ((leadingDigits k x).1 : ℚ) * (10 : ℚ) ^ (leadingDigits k x).2 = r * u := by
    rw [hL]
    split
    · rename_i h
      simp only
      rw [h, zpow_add_one₀ (by norm_num), ← hu]; push_cast; ring
    · rfl
  have err : |(r : ℚ) * u - x| = |(rne y : ℚ) - y| * u := by
    rw [hr, ← hyx, ← sub_mul, abs_mul, abs_of_pos hupos, Int.cast_natCast]
  have near : ∀ j : ℤ, |(r : ℚ) * u - x| ≤ |(j : ℚ) * u - x| := by
    intro j
    have : |(j : ℚ) * u - x| = |(j : ℚ) - y| * u := by rw [← hyx, ← sub_mul, abs_mul, abs_of_pos hupos]
    rw [err, this]
    exact mul_le_mul_of_nonneg_right (rne_nearest y j) hupos.le
  refine ⟨?_, ?_, ?_, ?_, ?_⟩
  · rw [hL]; split
    · exact le_rfl
    · exact rlo
  · rw [hL]; split
    · exact Nat.pow_lt_pow_right (by norm_num) (by omega)
    · show r < _; omega
  · rw [val, err]
    have h1 : |(rne y : ℚ) - y| * u ≤ 1 / 2 * u := mul_le_mul_of_nonneg_right (rne_abs y) hupos.le
    have h2 : 1 / 2 * u ≤ x / (2 * 10 ^ k) := by
      rw [le_div_iff₀ (by positivity)]
      calc 1 / 2 * u * (2 * 10 ^ k) = 10 ^ k * u := by ring
        _ = 10 ^ E := eE.symm
        _ ≤ x := lo
    exact h1.trans h2
  · intro n' e' hn'
    rw [val]
    by_cases he : E - k ≤ e'
    · obtain ⟨j, hj⟩ : ∃ j : Nat, e' = E - k + j := ⟨(e' - (E - k)).toNat, by omega⟩
      have := near (n' * 10 ^ j : Nat)
      rw [hj, zpow_add₀ (by norm_num), zpow_natCast, ← hu]
      push_cast at this
      rw [show (n' : ℚ) * (u * 10 ^ j) = n' * 10 ^ j * u by ring]
      exact this
    · push Not at he
      have h1 := near (10 ^ k : Nat)
      have h2 : (n' : ℚ) * (10 : ℚ) ^ e' ≤ 10 ^ E := by
        have a : (n' : ℚ) ≤ 10 ^ (k + 1) := by exact_mod_cast hn'.le
        calc (n' : ℚ) * (10 : ℚ) ^ e' ≤ 10 ^ (k + 1) * (10 : ℚ) ^ e' := mul_le_mul_of_nonneg_right a (by positivity)
          _ = (10 : ℚ) ^ ((k + 1 : Nat) + e') := by rw [zpow_add₀ (by norm_num), zpow_natCast]
          _ ≤ 10 ^ E := zpow_le_zpow_right₀ (by norm_num) (by push_cast; omega)
      refine h1.trans ?_
      push_cast
      rw [← eE, abs_of_nonpos (by linarith), abs_of_nonpos (by linarith)]
      linarith
  · rw [val, err]
    intro h
    by_cases hc : r = 10 ^ (k + 1)
    · exfalso
      rw [hL, if_pos hc] at h
      simp only at h
      rw [zpow_add_one₀ (by norm_num), ← hu] at h
      have h1 : |(rne y : ℚ) - y| * u ≤ 1 / 2 * u := mul_le_mul_of_nonneg_right (rne_abs y) hupos.le
      linarith
    · rw [hL, if_neg hc] at h ⊢
      simp only at h ⊢
      rw [← hu, mul_right_cancel_iff_of_pos hupos] at h
      have := rne_half h
      rw [hr] at this
      exact_mod_cast this

/-- **C93 (precision, with an exponent).** `{:.ke}` of a finite float other than zero prints its sign, a decimal `a` with one digit (not zero) before the point and `k` after it, `e` and an exponent. It is the nearest
such decimal to the number; of two equally near ones, one with an even last digit. Its relative error is at most half of `10^-k`. -/
theorem C93_exp_precision {F : FFmt} (upper : Bool) (k : Nat) (s : Bool) (m : ℚ) (hm : F.Rep m) (h0 : m ≠ 0) :
    ∃ (a b : List Char) (n : Nat) (e : ℤ), (Flt.expText upper).fmt (some k) (.fin s m hm) = String.ofList ((if s then ['-'] else []) ++ (a ++ (if upper then 'E' else 'e') :: b)) ∧
      readDecimal a = n / 10 ^ k ∧ 10 ^ k ≤ n ∧ n < 10 ^ (k + 1) ∧ ((a.dropWhile (· ≠ '.')).drop 1).length = k ∧ readInt b = e + k ∧
      |(n : ℚ) * (10 : ℚ) ^ e - m| ≤ m / (2 * 10 ^ k) ∧
      (∀ (n' : Nat) (e' : ℤ), n' < 10 ^ (k + 1) → |(n : ℚ) * (10 : ℚ) ^ e - m| ≤ |(n' : ℚ) * (10 : ℚ) ^ e' - m|) ∧
      (|(n : ℚ) * (10 : ℚ) ^ e - m| = 1 / 2 * (10 : ℚ) ^ e → Even n) := by
  have hp : 0 < m := lt_of_le_of_ne hm.nonneg (Ne.symm h0)
  obtain ⟨l1, l2, l3, l4, l5⟩ := leadingDigits_spec k hp
  refine ⟨decimalChars (leadingDigits k m).1 k, intChars ((leadingDigits k m).2 + k), (leadingDigits k m).1, (leadingDigits k m).2, ?_, readDecimal_decimalChars _ _, l1, l2, ?_,
    readInt_intChars _, l3, l4, l5⟩
  · show String.ofList ((if s then ['-'] else []) ++ sciPrec upper k m) = _
    unfold sciPrec
    rw [if_neg h0]
    rfl
  · rw [decimalChars_decimals]
    split
    · rename_i h; simp [h]
    · exact paddedDigits_length (by omega) (Nat.mod_lt _ (by positivity))

/-- **C93 (shortest, with an exponent).** `{:e}` of a finite float other than zero prints its sign, a decimal `a` with one digit (not zero) before the point, `e` and an exponent. The decimal has the digits of `d` and
no others, the last is not zero, and `d * 10^e` is the shortest decimal that is read as this float, as for `{}`. -/
theorem C93_exp_shortest {F : FFmt} (upper : Bool) (s : Bool) (m : ℚ) (hm : F.Rep m) (h0 : m ≠ 0) :
    ∃ (a b : List Char) (d : Nat) (e : ℤ), (Flt.expText upper).fmt none (.fin s m hm) = String.ofList ((if s then ['-'] else []) ++ (a ++ (if upper then 'E' else 'e') :: b)) ∧
      1 ≤ readDecimal a ∧ readDecimal a < 10 ∧ readDecimal a * (10 : ℚ) ^ readInt b = d * (10 : ℚ) ^ e ∧
      ((a.dropWhile (· ≠ '.')).drop 1).length + 1 = (Nat.toDigits 10 d).length ∧ d % 10 ≠ 0 ∧
      ∀ (d' : Nat) (e' : Int) (hq : 0 ≤ d' * (10 : ℚ) ^ e'), Flt.round s (d' * (10 : ℚ) ^ e') hq = .fin s m hm →
        e' ≤ e ∧ (e' = e → |d * (10 : ℚ) ^ e - m| ≤ |d' * (10 : ℚ) ^ e - m|) := by
  have hp : 0 < m := lt_of_le_of_ne hm.nonneg (Ne.symm h0)
  have hsh : ∀ (d' : Nat) (e' : Int), F.rnd (d' * pow10 e') = m → e' ≤ (F.shortestDigits m).2 ∧
      (e' = (F.shortestDigits m).2 → |(F.shortestDigits m).1 * (10 : ℚ) ^ (F.shortestDigits m).2 - m| ≤ |d' * (10 : ℚ) ^ (F.shortestDigits m).2 - m|) := by
    intro d' e' hr
    obtain ⟨h1, h2⟩ := FFmt.shortestDigits_shortest hm hp d' e' hr
    refine ⟨h1, ?_⟩
    rintro rfl
    have := h2 rfl
    rwa [pow10_eq] at this
  have hrnd : F.rnd ((F.shortestDigits m).1 * pow10 (F.shortestDigits m).2) = m := by
    obtain hr := C93_exp_reads_back upper (.fin s m hm : Flt F)
    have : (Flt.expText upper).fmt none (.fin s m hm : Flt F) = String.ofList ((if s then ['-'] else []) ++ sciAll upper (F.shortestDigits m).1 (F.shortestDigits m).2) := by
      show String.ofList ((if s then ['-'] else []) ++ (if m = 0 then _ else _)) = _
      rw [if_neg h0]
    rw [this] at hr
    unfold sciAll at hr
    rw [readFloatExp_sci] at hr
    unfold Flt.round at hr
    split at hr
    · injection hr with _ h; rw [readSci_sciChars] at h; rw [pow10_eq]; exact h
    · cases hr
  generalize hD : (F.shortestDigits m).1 = D at *
  generalize hE : (F.shortestDigits m).2 = E at *
  have hD0 : D ≠ 0 := by
    rintro rfl
    rw [Nat.cast_zero, zero_mul] at hrnd
    have : F.rnd 0 = 0 := F.rnd_zero
    rw [this] at hrnd
    exact h0 hrnd.symm
  have hlast : D % 10 ≠ 0 := by
    intro h10
    obtain ⟨q, rfl⟩ : 10 ∣ D := Nat.dvd_of_mod_eq_zero h10
    have := (hsh q (E + 1) (by rw [← hrnd, pow10_eq, pow10_eq, zpow_add₀ (by norm_num)]; congr 1; push_cast; ring)).1
    omega
  have hlen := Nat.length_toDigits_pos (b := 10) (n := D)
  have hlo : 10 ^ ((Nat.toDigits 10 D).length - 1) ≤ D := by
    by_contra hc
    rcases Nat.eq_zero_or_pos ((Nat.toDigits 10 D).length - 1) with hz | hz
    · rw [hz] at hc; omega
    · have := (Nat.length_toDigits_le_iff (by decide) hz).2 (not_le.1 hc)
      omega
  have hhi : D < 10 ^ ((Nat.toDigits 10 D).length - 1 + 1) := by
    have := (Nat.length_toDigits_le_iff (b := 10) (n := D) (k := (Nat.toDigits 10 D).length) (by decide) hlen).1 le_rfl
    rwa [Nat.sub_add_cancel hlen]
  generalize hL : (Nat.toDigits 10 D).length - 1 = L at *
  have hk : (0 : ℚ) < 10 ^ L := by positivity
  refine ⟨decimalChars D L, intChars (E + L), D, E, ?_, ?_, ?_, ?_, ?_, hlast, ?_⟩
  · show String.ofList ((if s then ['-'] else []) ++ (if m = 0 then _ else _)) = _
    rw [if_neg h0, hD, hE]
    unfold sciAll sciChars
    rw [hL]
    rfl
  · rw [readDecimal_decimalChars, le_div_iff₀ hk, one_mul]; exact_mod_cast hlo
  · rw [readDecimal_decimalChars, div_lt_iff₀ hk]
    have : (D : ℚ) < 10 ^ (L + 1) := by exact_mod_cast hhi
    rw [pow_succ] at this; linarith
  · rw [readDecimal_decimalChars, readInt_intChars, zpow_add₀ (by norm_num), zpow_natCast]; field_simp
  · rw [decimalChars_decimals]
    split
    · rename_i h; simp; omega
    · rw [paddedDigits_length (by omega) (Nat.mod_lt _ (by positivity))]; omega
  · intro d' e' hq h
    apply hsh
    unfold Flt.round at h
    split at h
    · rw [pow10_eq]; injection h
    · cases h

/-- **C93 (zero, with an exponent).** Zero prints `0e0`, with a precision `0.00e0`; negative zero keeps its sign. -/
theorem C93_exp_zero {F : FFmt} (upper s : Bool) (k : Nat) :
    (Flt.expText upper).fmt none (Flt.zero s : Flt F) = String.ofList ((if s then ['-'] else []) ++ ['0', if upper then 'E' else 'e', '0']) ∧
    (Flt.expText upper).fmt (some k) (Flt.zero s : Flt F) =
      String.ofList ((if s then ['-'] else []) ++ '0' :: ((if k = 0 then [] else '.' :: List.replicate k '0') ++ [if upper then 'E' else 'e', '0'])) := by
  have t0 : Nat.toDigits 10 0 = ['0'] := by decide
  constructor
  · show String.ofList ((if s then ['-'] else []) ++ (if (0 : ℚ) = 0 then _ else _)) = _
    rw [if_pos rfl]
    rfl
  · show String.ofList ((if s then ['-'] else []) ++ sciPrec upper k 0) = _
    unfold sciPrec
    rw [if_pos rfl]
    unfold sciChars decimalChars paddedDigits
    have e : (-(k : ℤ) + k) = 0 := by omega
    rw [e, Nat.zero_div, Nat.zero_mod, t0]
    have hi : intChars 0 = ['0'] := by decide
    rw [hi]
    congr 2
    rcases Nat.eq_zero_or_pos k with rfl | hk
    · rfl
    · rw [if_neg (by omega), if_neg (by omega)]
      have : List.replicate (k - ['0'].length) '0' ++ ['0'] = List.replicate k '0' := by
        obtain ⟨j, rfl⟩ : ∃ j, k = j + 1 := ⟨k - 1, by omega⟩
        simp [List.replicate_succ']
      rw [this]
      rfl

/-- **C93 (precision, integers).** `{:.ke}` of an integer other than zero: as for floats (`C93_exp_precision`). -/
theorem C93_exp_int_precision {τ : IntTy} (upper : Bool) (k : Nat) (x : MInt τ) (h0 : x.val ≠ 0) :
    ∃ (a b : List Char) (n : Nat) (e : ℤ), (MInt.expText upper).fmt (some k) x = String.ofList ((if x.val < 0 then ['-'] else []) ++ (a ++ (if upper then 'E' else 'e') :: b)) ∧
      readDecimal a = n / 10 ^ k ∧ 10 ^ k ≤ n ∧ n < 10 ^ (k + 1) ∧ ((a.dropWhile (· ≠ '.')).drop 1).length = k ∧ readInt b = e + k ∧
      |(n : ℚ) * (10 : ℚ) ^ e - ((x.val.natAbs : Nat) : ℚ)| ≤ ((x.val.natAbs : Nat) : ℚ) / (2 * 10 ^ k) ∧
      (∀ (n' : Nat) (e' : ℤ), n' < 10 ^ (k + 1) → |(n : ℚ) * (10 : ℚ) ^ e - ((x.val.natAbs : Nat) : ℚ)| ≤ |(n' : ℚ) * (10 : ℚ) ^ e' - ((x.val.natAbs : Nat) : ℚ)|) ∧
      (|(n : ℚ) * (10 : ℚ) ^ e - ((x.val.natAbs : Nat) : ℚ)| = 1 / 2 * (10 : ℚ) ^ e → Even n) := by
  have hne : ((x.val.natAbs : Nat) : ℚ) ≠ 0 := by exact_mod_cast Int.natAbs_ne_zero.2 h0
  have hp : (0 : ℚ) < (x.val.natAbs : Nat) := lt_of_le_of_ne (by positivity) hne.symm
  obtain ⟨l1, l2, l3, l4, l5⟩ := leadingDigits_spec k hp
  refine ⟨decimalChars (leadingDigits k (x.val.natAbs : ℚ)).1 k, intChars ((leadingDigits k (x.val.natAbs : ℚ)).2 + k), (leadingDigits k (x.val.natAbs : ℚ)).1,
    (leadingDigits k (x.val.natAbs : ℚ)).2, ?_, readDecimal_decimalChars _ _, l1, l2, ?_, readInt_intChars _, l3, l4, l5⟩
  · show String.ofList ((if x.val < 0 then ['-'] else []) ++ sciPrec upper k (x.val.natAbs : ℚ)) = _
    unfold sciPrec
    rw [if_neg hne]
    rfl
  · rw [decimalChars_decimals]
    split
    · rename_i h; simp [h]
    · exact paddedDigits_length (by omega) (Nat.mod_lt _ (by positivity))

/-- the number that is printed with `k + 1` digits -/
theorem expChars_prec_value {F : FFmt} (u : Bool) (k : Nat) {x : Flt F} (hx : x.isFin) : |readSigned (x.expChars u (some k)) - x.val| ≤ |x.val| / (2 * 10 ^ k) := by
  cases x with
  | nan => exact absurd hx (by simp [Flt.isFin])
  | inf s => exact absurd hx (by simp [Flt.isFin])
  | fin s m hm =>
    show |readSigned ((if s then ['-'] else []) ++ sciPrec u k m) - (if s then -m else m)| ≤ |(if s then -m else m)| / (2 * 10 ^ k)
    by_cases h0 : m = 0
    · unfold sciPrec
      rw [if_pos h0, readSigned_sci, h0]
      simp
    · obtain ⟨-, -, l3, -, -⟩ := leadingDigits_spec k (lt_of_le_of_ne hm.nonneg (Ne.symm h0))
      unfold sciPrec
      rw [if_neg h0, readSigned_sci]
      cases s
      · simp only [Bool.false_eq_true, if_false, one_mul, abs_of_nonneg hm.nonneg]; exact l3
      · simp only [if_true, abs_neg, abs_of_nonneg hm.nonneg]
        rw [show (-1 : ℚ) * (((leadingDigits k m).1 : ℚ) * 10 ^ (leadingDigits k m).2) - -m = -(((leadingDigits k m).1 : ℚ) * 10 ^ (leadingDigits k m).2 - m) by ring, abs_neg]
        exact l3

theorem expChars_prec_close {F : FFmt} {u : Bool} {k : Nat} {x y : Flt F} (hx : x.isFin) (hy : y.isFin) (h : x.expChars u (some k) = y.expChars u (some k)) :
    |x.val - y.val| ≤ 1 / (2 * 10 ^ k) * (|x.val| + |y.val|) := by
  have a := abs_le.1 (expChars_prec_value u k hx)
  have b := abs_le.1 (expChars_prec_value u k hy)
  rw [h] at a
  have e : 1 / (2 * 10 ^ k) * (|x.val| + |y.val|) = |x.val| / (2 * 10 ^ k) + |y.val| / (2 * 10 ^ k) := by ring
  rw [e, abs_le]
  constructor <;> linarith [a.1, a.2, b.1, b.2]

theorem expChars_fin_ne_inf {F : FFmt} {u : Bool} {p : Option Nat} {x : Flt F} (hx : x.isFin) : x.expChars u p ≠ ['i', 'n', 'f'] := by
  cases x with
  | nan => exact absurd hx (by simp [Flt.isFin])
  | inf s => exact absurd hx (by simp [Flt.isFin])
  | fin s m hm =>
    obtain ⟨n, k, e, he⟩ := expChars_form u p s m hm
    obtain ⟨c, l, h, hc⟩ := sciChars_head u n k e
    rw [he, h]
    intro hh
    cases s
    · simp only [Bool.false_eq_true, if_false, List.nil_append] at hh
      injection hh with h1 _; subst h1; exact absurd hc (by decide)
    · simp at hh

/-- the two intervals are of the same kind, and their ends differ by at most `q` of the sum of their sizes -/
def BinInterval.EndsRel {F : FFmt} (q : ℚ) : BinInterval (Flt F) → BinInterval (Flt F) → Prop
  | .Underflow e, .Underflow e' => |e.val - e'.val| ≤ q * (|e.val| + |e'.val|)
  | .Overflow s, .Overflow s' => |s.val - s'.val| ≤ q * (|s.val| + |s'.val|)
  | .Bin s e, .Bin s' e' => |s.val - s'.val| ≤ q * (|s.val| + |s'.val|) ∧ |e.val - e'.val| ≤ q * (|e.val| + |e'.val|)
  | _, _ => False

section
variable {F : FFmt}

/-- **C93 (labels with `k + 1` digits).** Intervals with finite ends that are printed the same with `{:.ke}` are of the same kind, and their ends differ by at most `10^-k` of their mean size. -/
theorem C93_exp_label_precision (upper : Bool) (k : Nat) {b b' : BinInterval (Flt F)} (hb : b.EndsFin) (hb' : b'.EndsFin)
    (h : letI : Disp (Flt F) := Flt.expText upper; Disp.fmt (some k) b = Disp.fmt (some k) b') : b.EndsRel (1 / (2 * 10 ^ k)) b' := by
  let _ : Disp (Flt F) := Flt.expText upper
  have tl : ∀ x : Flt F, (Disp.fmt (some k) x).toList = x.expChars upper (some k) := fun x => String.toList_ofList
  have h : Disp.fmt (some k) b = Disp.fmt (some k) b' := h
  have h := congrArg String.toList h
  have nc := fun x : Flt F => expChars_noComma upper (some k) x
  cases b with
  | Underflow e =>
    cases b' with
    | Underflow e' =>
      rw [fmt_underflow, fmt_underflow, tl, tl] at h
      exact expChars_prec_close hb hb' (by simpa using h)
    | Overflow s => rw [fmt_underflow, fmt_overflow] at h; simp at h
    | Bin s e' => rw [fmt_underflow, fmt_bin] at h; simp at h
  | Overflow s =>
    cases b' with
    | Underflow e' => rw [fmt_underflow, fmt_overflow] at h; simp at h
    | Overflow s' =>
      rw [fmt_overflow, fmt_overflow, tl, tl] at h
      exact expChars_prec_close hb hb' (by simpa using h)
    | Bin s' e' =>
      rw [fmt_overflow, fmt_bin, tl, tl, tl] at h
      injection h with _ h
      obtain ⟨-, h⟩ := split_comma (nc _) (nc _) h
      exact absurd (by have h := List.cons.inj h.symm; exact List.append_cancel_right h.2) (expChars_fin_ne_inf (u := upper) (p := some k) hb'.2)
  | Bin s e =>
    cases b' with
    | Underflow e' => rw [fmt_underflow, fmt_bin] at h; simp at h
    | Overflow s' =>
      rw [fmt_overflow, fmt_bin, tl, tl, tl] at h
      injection h with _ h
      obtain ⟨-, h⟩ := split_comma (nc _) (nc _) h
      exact absurd (by have h := List.cons.inj h; exact List.append_cancel_right h.2) (expChars_fin_ne_inf (u := upper) (p := some k) hb.2)
    | Bin s' e' =>
      rw [fmt_bin, fmt_bin, tl, tl, tl, tl] at h
      injection h with _ h
      obtain ⟨h1, h2⟩ := split_comma (nc _) (nc _) h
      exact ⟨expChars_prec_close hb.1 hb'.1 h1, expChars_prec_close hb.2 hb'.2 (by simpa using h2)⟩

/-- **C93 (printed bins with an exponent, variable axes).** If any two edges are finite and differ by more than `10^-k` of their mean size (so for edges that grow by a fixed factor, however small they are), different
bins of a `Variable` float axis are printed differently with `{:.ke}`. -/
theorem C93_exp_variable_precision [cfg : Cfg] [StdLib] (upper : Bool) (k : Nat) {edges : List (Flt F)} {a : Variable (Flt F)} (hnew : Variable.new edges = .ok (.ok a)) (hmem : edges.length + 1 < usizeSize)
    (hfin : ∀ x ∈ edges, x.isFin) (hd : edges.Pairwise (fun x y => 1 / (2 * 10 ^ k) * (|x.val| + |y.val|) < |x.val - y.val|))
    {i j : Nat} {b b' : BinInterval (Flt F)} (hi : a.bin i = .ok (some b)) (hj : a.bin j = .ok (some b')) :
    (letI : Disp (Flt F) := Flt.expText upper; Disp.fmt (some k) b = Disp.fmt (some k) b') ↔ i = j := by
  obtain ⟨h2, _, p1, ok1⟩ := Variable.new_ok hnew
  have hlen := p1.length_eq
  have hd' : a.binEdges.Pairwise (fun x y : Flt F => 1 / (2 * 10 ^ k) * (|x.val| + |y.val|) < |x.val - y.val|) :=
    (p1.pairwise_iff (fun {x y} h => by rw [abs_sub_comm, add_comm |y.val|]; exact h)).2 hd
  have hfin' : ∀ x ∈ a.binEdges, x.isFin := fun x hx => hfin x (p1.mem_iff.1 hx)
  obtain ⟨_, ⟨e0, he0, _, b0⟩, ⟨en, hen, _, bn⟩, bk, bout⟩ := C13_variable_bins hnew hmem
  have mem : ∀ {i : Nat} {x : Flt F}, a.binEdges[i]? = some x → x.isFin := fun h => hfin' _ (List.mem_of_getElem? h)
  have shape : ∀ i b, a.bin i = .ok (some b) → (i = 0 ∧ b = .Underflow e0) ∨ (i = edges.length ∧ b = .Overflow en) ∨
      ∃ k s e, i = k + 1 ∧ k + 1 < edges.length ∧ a.binEdges[k]? = some s ∧ a.binEdges[k + 1]? = some e ∧ b = .Bin s e := by
    intro i b h
    rcases Nat.eq_zero_or_pos i with rfl | h0
    · rw [b0] at h; simp at h; exact .inl ⟨rfl, h.symm⟩
    · rcases Nat.lt_trichotomy i edges.length with hl | hl | hl
      · obtain ⟨s, e, hs, he, hb⟩ := bk (i - 1) (by omega)
        rw [show i - 1 + 1 = i by omega, h] at hb
        simp only [Except.ok.injEq, Option.some.injEq] at hb
        exact .inr (.inr ⟨i - 1, s, e, by omega, by omega, hs, he, hb⟩)
      · subst hl; rw [bn] at h; simp at h; exact .inr (.inl ⟨by omega, h.symm⟩)
      · rw [bout i hl] at h; simp at h
  have fin : ∀ i b, a.bin i = .ok (some b) → b.EndsFin := by
    intro i b h
    rcases shape i b h with ⟨-, rfl⟩ | ⟨-, rfl⟩ | ⟨n, s, e, -, -, hs, he, rfl⟩
    · exact mem he0
    · exact mem hen
    · exact ⟨mem hs, mem he⟩
  have far : ∀ {n n' : Nat} {s s' : Flt F}, n < n' → a.binEdges[n]? = some s → a.binEdges[n']? = some s' → ¬|s.val - s'.val| ≤ 1 / (2 * 10 ^ k) * (|s.val| + |s'.val|) := by
    intro n n' s s' hl hs hs'
    obtain ⟨l1, q1⟩ := List.getElem?_eq_some_iff.1 hs
    obtain ⟨l2, q2⟩ := List.getElem?_eq_some_iff.1 hs'
    have := List.pairwise_iff_getElem.1 hd' n n' l1 l2 hl
    rw [q1, q2] at this
    exact not_le.2 this
  constructor
  · intro h
    have near := C93_exp_label_precision upper k (fin i b hi) (fin j b' hj) h
    rcases shape i b hi with ⟨h1, rfl⟩ | ⟨h1, rfl⟩ | ⟨n, s, e, h1, hn, hs, he, rfl⟩ <;>
      rcases shape j b' hj with ⟨h1', rfl⟩ | ⟨h1', rfl⟩ | ⟨n', s', e', h1', hn', hs', he', rfl⟩ <;> first | omega | (exact near.elim) | skip
    rcases Nat.lt_trichotomy n n' with hl | hl | hl
    · exact absurd near.1 (far hl hs hs')
    · omega
    · have := far hl hs' hs
      rw [abs_sub_comm, add_comm |s'.val|] at this
      exact absurd near.1 this
  · rintro rfl
    rw [hi] at hj
    simp only [Except.ok.injEq, Option.some.injEq] at hj
    rw [hj]
end
end NdHist
