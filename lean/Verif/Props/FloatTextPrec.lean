import Verif.Props.FloatTextMore
/-!
# C93: printed numbers: a given number of decimals, labels, axes and headers
-/
set_option linter.unusedSectionVars false
namespace NdHist

/-! ## `{:.k}` -/

theorem rne_half {y : ℚ} (h : |(rne y : ℚ) - y| = 1 / 2) : Even (rne y) := by
  have hfl := Int.floor_le y
  have hfl2 := Int.lt_floor_add_one y
  unfold rne at h ⊢
  simp only at h ⊢
  by_cases h1 : y - ⌊y⌋ < 1 / 2
  · rw [if_pos h1] at h
    rw [abs_of_nonpos (by linarith)] at h
    linarith
  · rw [if_neg h1] at h ⊢
    by_cases h2 : 1 / 2 < y - ⌊y⌋
    · rw [if_pos h2] at h
      push_cast at h
      rw [abs_of_nonneg (by linarith)] at h
      linarith
    · rw [if_neg h2]
      split
      · rename_i h3; rw [Int.even_iff]; simpa using h3
      · rename_i h3; rw [Int.even_add_one, Int.even_iff]; simpa using h3

theorem decimalChars_decimals (n k : Nat) : ((decimalChars n k).dropWhile (· ≠ '.')).drop 1 = if k = 0 then [] else paddedDigits k (n % 10 ^ k) := by
  unfold decimalChars
  by_cases hk : k = 0
  · subst hk
    obtain ⟨-, h2⟩ := takeWhile_digits' (a := Nat.toDigits 10 (n / 10 ^ 0)) fun c hc => toDigits_isDigit hc
    simp only [if_pos, List.append_nil, h2]; rfl
  · obtain ⟨-, h2⟩ := takeWhile_digits (a := Nat.toDigits 10 (n / 10 ^ k)) (b := paddedDigits k (n % 10 ^ k)) fun c hc => toDigits_isDigit hc
    simp only [if_neg hk, h2, List.drop_one, List.tail_cons]

theorem prec_value {F : FFmt} {m : ℚ} (hm : F.Rep m) (k : Nat) : (((rne (m * 10 ^ k)).toNat : Nat) : ℚ) = (rne (m * 10 ^ k) : ℚ) := by
  have h0 : 0 ≤ rne (m * 10 ^ k) := FFmt.rne_nonneg (mul_nonneg hm.nonneg (by positivity))
  exact_mod_cast Int.toNat_of_nonneg h0

theorem prec_close {F : FFmt} {m : ℚ} (hm : F.Rep m) (k : Nat) : |(((rne (m * 10 ^ k)).toNat : Nat) : ℚ) / 10 ^ k - m| = |(rne (m * 10 ^ k) : ℚ) - m * 10 ^ k| / 10 ^ k := by
  rw [prec_value hm]
  have h : (0 : ℚ) < 10 ^ k := by positivity
  rw [← abs_of_pos h, ← abs_div, abs_of_pos h, sub_div, mul_div_cancel_right₀ _ h.ne']

/-- **C93 (precision).** `{:.k}` of a finite float prints its sign and a decimal with exactly `k` digits after the point, the nearest one to the number; of two equally near ones, the even one. -/
theorem C93_precision {F : FFmt} (k : Nat) (s : Bool) (m : ℚ) (hm : F.Rep m) :
    ∃ (l : List Char) (n : Nat), Flt.text.fmt (some k) (.fin s m hm) = String.ofList ((if s then ['-'] else []) ++ l) ∧ readDecimal l = (n : ℚ) / 10 ^ k ∧
      ((l.dropWhile (· ≠ '.')).drop 1).length = k ∧ ('.' ∈ l ↔ k ≠ 0) ∧
      |(n : ℚ) / 10 ^ k - m| ≤ 1 / (2 * 10 ^ k) ∧ (|(n : ℚ) / 10 ^ k - m| = 1 / (2 * 10 ^ k) → Even n) := by
  have h : (0 : ℚ) < 10 ^ k := by positivity
  have e : (1 : ℚ) / (2 * 10 ^ k) = 1 / 2 / 10 ^ k := by rw [div_div]
  refine ⟨decimalChars (rne (m * 10 ^ k)).toNat k, (rne (m * 10 ^ k)).toNat, rfl, readDecimal_decimalChars _ _, ?_, ?_, ?_, ?_⟩
  · rw [decimalChars_decimals]
    split
    · rename_i h; simp [h]
    · exact paddedDigits_length (by omega) (Nat.mod_lt _ (by positivity))
  · constructor
    · rintro hd rfl
      unfold decimalChars at hd
      simp only [if_pos, List.append_nil] at hd
      exact absurd (toDigits_isDigit hd) (by decide)
    · intro hk; unfold decimalChars; rw [if_neg hk]; simp
  · rw [prec_close hm, e]
    exact div_le_div_of_nonneg_right (rne_abs _) h.le
  · rw [prec_close hm, e, div_left_inj' h.ne']
    intro hh
    have := rne_half hh
    rw [Int.even_iff] at this
    rw [Nat.even_iff]
    have h0 : 0 ≤ rne (m * 10 ^ k) := FFmt.rne_nonneg (mul_nonneg hm.nonneg (by positivity))
    omega

theorem inf_not_decimal {n k : Nat} : ['i', 'n', 'f'] ≠ decimalChars n k := by
  obtain ⟨c, l, h, hc⟩ := decimalChars_head n k
  rw [h]; intro h'; injection h' with h1 _; subst h1; exact absurd hc (by decide)

theorem minus_not_decimal {n k : Nat} {l : List Char} : '-' :: l ≠ decimalChars n k := by
  obtain ⟨c, l', h, hc⟩ := decimalChars_head n k
  rw [h]; intro h'; injection h' with h1 _; subst h1; exact absurd hc (by decide)

/-- finite floats that print the same with `k` decimals are at most `10^-k` apart -/
theorem chars_prec_close {F : FFmt} {k : Nat} {x y : Flt F} (hx : x.isFin) (hy : y.isFin) (h : x.chars (some k) = y.chars (some k)) : |x.val - y.val| ≤ 1 / 10 ^ k := by
  cases x with
  | nan => exact absurd hx (by simp [Flt.isFin])
  | inf s => exact absurd hx (by simp [Flt.isFin])
  | fin s m hm =>
    cases y with
    | nan => exact absurd hy (by simp [Flt.isFin])
    | inf s => exact absurd hy (by simp [Flt.isFin])
    | fin s' m' hm' =>
      have close : decimalChars (rne (m * 10 ^ k)).toNat k = decimalChars (rne (m' * 10 ^ k)).toNat k → |m - m'| ≤ 1 / 10 ^ k := by
        intro h
        have h := congrArg readDecimal h
        rw [readDecimal_decimalChars, readDecimal_decimalChars] at h
        have hp : (0 : ℚ) < 10 ^ k := by positivity
        have a := prec_close hm k
        have b := prec_close hm' k
        have a1 := div_le_div_of_nonneg_right (rne_abs (m * 10 ^ k)) hp.le
        have b1 := div_le_div_of_nonneg_right (rne_abs (m' * 10 ^ k)) hp.le
        rw [← a] at a1
        rw [← b] at b1
        rw [h] at a1
        rw [abs_le] at a1 b1 ⊢
        have e : (1 : ℚ) / 10 ^ k = 1 / 2 / 10 ^ k + 1 / 2 / 10 ^ k := by ring
        rw [e]
        constructor <;> linarith [a1.1, a1.2, b1.1, b1.2]
      cases s <;> cases s' <;> simp only [Flt.chars, Flt.val, if_true, if_false, Bool.false_eq_true, List.nil_append, List.cons_append] at h ⊢
      · exact close h
      · exact absurd h.symm minus_not_decimal
      · exact absurd h minus_not_decimal
      · have := close (by injection h)
        show |-m - -m'| ≤ _
        rw [show -m - -m' = -(m - m') by ring, abs_neg]; exact this

theorem chars_fin_ne_inf {F : FFmt} {p : Option Nat} {x : Flt F} (hx : x.isFin) : x.chars p ≠ ['i', 'n', 'f'] := by
  cases x with
  | nan => exact absurd hx (by simp [Flt.isFin])
  | inf s => exact absurd hx (by simp [Flt.isFin])
  | fin s m hm =>
    have key : ∀ (n k : Nat), (if s = true then ['-'] else []) ++ decimalChars n k ≠ ['i', 'n', 'f'] := by
      intro n k h
      cases s
      · exact inf_not_decimal h.symm
      · simp at h
    cases p with
    | none =>
      obtain ⟨n, k, h⟩ := F.shortestChars_form m
      simp only [Flt.chars, h]; exact key n k
    | some k => exact key _ k

/-- the two intervals are of the same kind and their ends at most `d` apart -/
def BinInterval.EndsNear {F : FFmt} (d : ℚ) : BinInterval (Flt F) → BinInterval (Flt F) → Prop
  | .Underflow e, .Underflow e' => |e.val - e'.val| ≤ d
  | .Overflow s, .Overflow s' => |s.val - s'.val| ≤ d
  | .Bin s e, .Bin s' e' => |s.val - s'.val| ≤ d ∧ |e.val - e'.val| ≤ d
  | _, _ => False

/-- all ends of the interval are finite numbers -/
def BinInterval.EndsFin {F : FFmt} : BinInterval (Flt F) → Prop
  | .Underflow e => e.isFin
  | .Overflow s => s.isFin
  | .Bin s e => s.isFin ∧ e.isFin

section
variable {F : FFmt}
attribute [local instance] Flt.text

theorem text_toList (p : Option Nat) (x : Flt F) : (Disp.fmt p x).toList = x.chars p := String.toList_ofList

/-- **C93 (labels with decimals).** Intervals with finite ends that are printed the same with `k` decimals (as the rows of a printed histogram are, by default with two) are of the same kind, and
their ends are at most `10^-k` apart. -/
theorem C93_label_precision (k : Nat) {b b' : BinInterval (Flt F)} (hb : b.EndsFin) (hb' : b'.EndsFin) (h : Disp.fmt (some k) b = Disp.fmt (some k) b') : b.EndsNear (1 / 10 ^ k) b' := by
  have h := congrArg String.toList h
  have nc := fun x : Flt F => chars_noComma (some k) x
  cases b with
  | Underflow e =>
    cases b' with
    | Underflow e' =>
      rw [fmt_underflow, fmt_underflow, text_toList, text_toList] at h
      exact chars_prec_close hb hb' (by simpa using h)
    | Overflow s => rw [fmt_underflow, fmt_overflow] at h; simp at h
    | Bin s e' => rw [fmt_underflow, fmt_bin] at h; simp at h
  | Overflow s =>
    cases b' with
    | Underflow e' => rw [fmt_underflow, fmt_overflow] at h; simp at h
    | Overflow s' =>
      rw [fmt_overflow, fmt_overflow, text_toList, text_toList] at h
      exact chars_prec_close hb hb' (by simpa using h)
    | Bin s' e' =>
      rw [fmt_overflow, fmt_bin, text_toList, text_toList, text_toList] at h
      injection h with _ h
      obtain ⟨-, h⟩ := split_comma (nc _) (nc _) h
      exact absurd (by have h := List.cons.inj h.symm; exact List.append_cancel_right h.2) (chars_fin_ne_inf (p := some k) hb'.2)
  | Bin s e =>
    cases b' with
    | Underflow e' => rw [fmt_underflow, fmt_bin] at h; simp at h
    | Overflow s' =>
      rw [fmt_overflow, fmt_bin, text_toList, text_toList, text_toList] at h
      injection h with _ h
      obtain ⟨-, h⟩ := split_comma (nc _) (nc _) h
      exact absurd (by have h := List.cons.inj h; exact List.append_cancel_right h.2) (chars_fin_ne_inf (p := some k) hb.2)
    | Bin s' e' =>
      rw [fmt_bin, fmt_bin, text_toList, text_toList, text_toList, text_toList] at h
      injection h with _ h
      obtain ⟨h1, h2⟩ := split_comma (nc _) (nc _) h
      exact ⟨chars_prec_close hb.1 hb'.1 h1, chars_prec_close hb.2 hb'.2 (by simpa using h2)⟩

theorem prec_labels_inj {k num : Nat} {e : Nat → Flt F} {lo hi : Flt F} (hlo : lo.isFin) (hhi : hi.isFin) (he : ∀ i, i ≤ num → (e i).isFin)
    (far : ∀ i j, i < j → j < num → 1 / 10 ^ k < |(e i).val - (e j).val|)
    {bin : Nat → Res (Option (BinInterval (Flt F)))}
    (shape : ∀ i b, bin i = .ok (some b) → (i = 0 ∧ b = .Underflow lo) ∨ (i = num + 1 ∧ b = .Overflow hi) ∨ ∃ k, i = k + 1 ∧ k < num ∧ b = .Bin (e k) (e (k + 1)))
    {i j : Nat} {b b' : BinInterval (Flt F)} (hi : bin i = .ok (some b)) (hj : bin j = .ok (some b')) :
    Disp.fmt (some k) b = Disp.fmt (some k) b' ↔ i = j := by
  have fin : ∀ i b, bin i = .ok (some b) → b.EndsFin := by
    intro i b h
    rcases shape i b h with ⟨-, rfl⟩ | ⟨-, rfl⟩ | ⟨n, -, hn, rfl⟩
    · exact hlo
    · exact hhi
    · exact ⟨he _ (by omega), he _ (by omega)⟩
  constructor
  · intro h
    have near := C93_label_precision k (fin i b hi) (fin j b' hj) h
    rcases shape i b hi with ⟨h1, rfl⟩ | ⟨h1, rfl⟩ | ⟨n, h1, hn, rfl⟩ <;>
      rcases shape j b' hj with ⟨h1', rfl⟩ | ⟨h1', rfl⟩ | ⟨n', h1', hn', rfl⟩ <;> first | omega | (exact near.elim) | skip
    rcases Nat.lt_trichotomy n n' with hl | hl | hl
    · exact absurd near.1 (not_le.2 (far n n' hl hn'))
    · omega
    · have := far n' n hl hn
      rw [abs_sub_comm] at this
      exact absurd near.1 (not_le.2 this)
  · rintro rfl
    rw [hi] at hj
    simp only [Except.ok.injEq, Option.some.injEq] at hj
    rw [hj]

section
variable [cfg : Cfg]

/-- **C93 (printed rows, uniform axes).** If the nominal bin width exceeds `10^-k + 12 * 2^-p * (|low| + |high|)`, different bins of a `Uniform` float axis are printed differently with `k` decimals. -/
theorem C93_uniform_precision (k : Nat) {num : Nat} {low high : Flt F} {a : Uniform (Flt F)} (hnew : Uniform.new num low high = .ok (.ok a))
    (hl : low.isFin) (hh : high.isFin) (hn : num + 2 < usizeSize) (hp : num < 2 ^ (F.p - 1))
    (hw : num * pow2 F.emin ≤ |high.val - low.val|) (hs : 4 * (num * (|low.val| + |high.val|)) ≤ F.maxFin)
    (hr : num * (1 / 10 ^ k + 12 * pow2 (-(F.p : Int)) * (|low.val| + |high.val|)) < |high.val - low.val|)
    {i j : Nat} {b b' : BinInterval (Flt F)} (hi : a.bin i = .ok (some b)) (hj : a.bin j = .ok (some b')) :
    Disp.fmt (some k) b = Disp.fmt (some k) b' ↔ i = j := by
  obtain ⟨b0, bn, bout, e, bk, hf, -, -⟩ := C47_float_bins hnew hl hh hn hp hw hs
  obtain ⟨sane, hnum, -⟩ := Uniform.new_sane hnew hl hh hp hw hs
  have hnQ : (0 : ℚ) < num := by have := sane.numQ; rw [hnum] at this; linarith
  have hwid : a.high.val - a.low.val = |high.val - low.val| := by
    have hlt := sane.lt
    obtain ⟨r, hr, -, -, hok, hax⟩ := C03_new_float num low high
    have hra : r = .ok a := by rw [hr] at hnew; injection hnew
    obtain ⟨-, hsw, hns, -⟩ := hax a hra
    by_cases h : POrd.gt low high = true
    · obtain ⟨e1, e2⟩ := hsw h
      rw [e1, e2] at hlt ⊢
      rw [abs_of_neg (by linarith)]; ring
    · obtain ⟨e1, e2⟩ := hns (by simpa using h)
      rw [e1, e2] at hlt ⊢
      rw [abs_of_pos (by linarith)]
  set R := 6 * pow2 (-(F.p : Int)) * (|low.val| + |high.val|) with hR
  set w := (a.high.val - a.low.val) / num with hwdef
  have hwR : 1 / 10 ^ k + 2 * R < w := by
    rw [hwdef, lt_div_iff₀ hnQ, hwid]
    calc (1 / 10 ^ k + 2 * R) * num = num * (1 / 10 ^ k + 12 * pow2 (-(F.p : Int)) * (|low.val| + |high.val|)) := by rw [hR]; ring
      _ < _ := hr
  have hR0 : 0 ≤ R := by
    have := pow2_pos (-(F.p : Int))
    have h1 := abs_nonneg low.val
    have h2 := abs_nonneg high.val
    positivity
  have hk0 : (0 : ℚ) < 1 / 10 ^ k := by positivity
  refine prec_labels_inj (num := num) (e := e) (lo := a.low) (hi := a.high) (bin := a.bin) sane.low_fin sane.high_fin (fun i hi => (hf i hi).1) ?_ ?_ hi hj
  · intro i j hij hj
    have h1 := abs_le.mp (hf i (by omega)).2
    have h2 := abs_le.mp (hf j (by omega)).2
    have : (i : ℚ) + 1 ≤ j := by exact_mod_cast hij
    have : (i + 1) * w ≤ j * w := mul_le_mul_of_nonneg_right this (by linarith)
    rw [abs_sub_comm]
    refine lt_of_lt_of_le ?_ (le_abs_self _)
    nlinarith [h1.2, h2.1]
  · intro i b h
    rcases Nat.eq_zero_or_pos i with rfl | h0
    · rw [b0] at h; simp at h; exact .inl ⟨rfl, h.symm⟩
    · rcases Nat.lt_trichotomy i (num + 1) with hl | hl | hl
      · have hb := bk (i - 1) (by omega)
        rw [show i - 1 + 1 = i by omega, h] at hb
        simp only [Except.ok.injEq, Option.some.injEq] at hb
        exact .inr (.inr ⟨i - 1, by omega, by omega, by rw [show i - 1 + 1 = i by omega]; exact hb⟩)
      · subst hl; rw [bn] at h; simp at h; exact .inr (.inl ⟨rfl, h.symm⟩)
      · rw [bout i hl] at h; simp at h

/-- **C93 (printed rows, variable axes).** If any two edges are finite and more than `10^-k` apart, different bins of a `Variable` float axis are printed differently with `k` decimals. -/
theorem C93_variable_precision [StdLib] (k : Nat) {edges : List (Flt F)} {a : Variable (Flt F)} (hnew : Variable.new edges = .ok (.ok a)) (hmem : edges.length + 1 < usizeSize)
    (hfin : ∀ x ∈ edges, x.isFin) (hd : edges.Pairwise (fun x y => 1 / 10 ^ k < |x.val - y.val|))
    {i j : Nat} {b b' : BinInterval (Flt F)} (hi : a.bin i = .ok (some b)) (hj : a.bin j = .ok (some b')) :
    Disp.fmt (some k) b = Disp.fmt (some k) b' ↔ i = j := by
  obtain ⟨h2, _, p1, ok1⟩ := Variable.new_ok hnew
  have hlen := p1.length_eq
  have hd' : a.binEdges.Pairwise (fun x y : Flt F => 1 / 10 ^ k < |x.val - y.val|) :=
    (p1.pairwise_iff (fun {x y} h => by rwa [abs_sub_comm])).2 hd
  have hfin' : ∀ x ∈ a.binEdges, x.isFin := fun x hx => hfin x (p1.mem_iff.1 hx)
  obtain ⟨_, ⟨e0, he0, _, b0⟩, ⟨en, hen, _, bn⟩, bk, bout⟩ := C13_variable_bins hnew hmem
  have get : ∀ {i : Nat} {x : Flt F}, a.binEdges[i]? = some x → a.binEdges.getD i .nan = x := by
    intro i x h; rw [List.getD_eq_getElem?_getD, h]; rfl
  have mem : ∀ {i : Nat} {x : Flt F}, a.binEdges[i]? = some x → x.isFin := fun h => hfin' _ (List.mem_of_getElem? h)
  refine prec_labels_inj (num := edges.length - 1) (e := fun i => a.binEdges.getD i .nan) (lo := e0) (hi := en) (bin := a.bin) (mem he0) (mem hen) ?_ ?_ ?_ hi hj
  · intro i hi
    have hl : i < a.binEdges.length := by omega
    exact hfin' _ (by rw [List.getD_eq_getElem?_getD, List.getElem?_eq_getElem hl]; exact List.getElem_mem hl)
  · intro i j hij hj
    have hl : i < a.binEdges.length := by omega
    have hl' : j < a.binEdges.length := by omega
    simp only [List.getD_eq_getElem?_getD, List.getElem?_eq_getElem hl, List.getElem?_eq_getElem hl', Option.getD_some]
    exact List.pairwise_iff_getElem.1 hd' i j hl hl' hij
  · intro i b h
    rcases Nat.eq_zero_or_pos i with rfl | h0
    · rw [b0] at h; simp at h; exact .inl ⟨rfl, h.symm⟩
    · rcases Nat.lt_trichotomy i edges.length with hl | hl | hl
      · obtain ⟨s, e, hs, he, hb⟩ := bk (i - 1) (by omega)
        rw [show i - 1 + 1 = i by omega, h] at hb
        simp only [Except.ok.injEq, Option.some.injEq] at hb
        exact .inr (.inr ⟨i - 1, by omega, by omega, by rw [hb]; simp only [get hs, get he]⟩)
      · subst hl; rw [bn] at h; simp at h; exact .inr (.inl ⟨by omega, h.symm⟩)
      · rw [bout i hl] at h; simp at h
end

/-- **C93 (labels).** With `{}`, two float intervals print the same exactly if they are equal, or one is an overflow bin and the other a bin with the same start that ends at infinity. -/
theorem C93_labels (b b' : BinInterval (Flt F)) :
    Disp.fmt none b = Disp.fmt none b' ↔ b = b' ∨ ∃ s, b = .Overflow s ∧ b' = .Bin s (.inf false) ∨ b = .Bin s (.inf false) ∧ b' = .Overflow s := by
  have hinf : ∀ e : Flt F, Disp.fmt none e = "inf" ↔ e = .inf false := by
    intro e
    constructor
    · intro h; exact C93_plain_text.inj e (.inf false) (by rw [h]; rfl)
    · rintro rfl; rfl
  rw [C70_bin_interval C93_plain_text]
  constructor
  · rintro (h | ⟨s, e, h, h1⟩)
    · exact .inl h
    · rw [hinf] at h; subst h; exact .inr ⟨s, h1⟩
  · rintro (h | ⟨s, h⟩)
    · exact .inl h
    · exact .inr ⟨s, .inf false, (hinf _).2 rfl, h⟩
end

/-! ## Axes -/

theorem toString_noComma (n : Nat) : ',' ∉ (toString n).toList := by
  intro h
  have h : ',' ∈ (Nat.repr n).toList := h
  rw [Nat.toList_repr] at h
  exact absurd (toDigits_isDigit h) (by decide)

theorem axisText_inj {T : Type} [Disp T] (hT : PlainText T none) {n n' : Nat} {low high low' high' : T} {c c' : String} :
    axisText n low high c = axisText n' low' high' c' ↔ n = n' ∧ low = low' ∧ high = high' ∧ c = c' := by
  constructor
  · intro h
    have h := congrArg String.toList h
    unfold axisText at h
    have form : ∀ (n : Nat) (low high : T) (c : String), ("Axis{# bins=" ++ toString n ++ ", range=[" ++ Disp.fmt none low ++ ", " ++ Disp.fmt none high ++ "), class=" ++ c ++ "}").toList =
        "Axis{# bins=".toList ++ ((toString n).toList ++ ',' :: (" range=[".toList ++ ((Disp.fmt none low).toList ++ ',' :: (' ' :: (((Disp.fmt none high).toList ++ [')']) ++ ',' :: (" class=".toList ++ (c.toList ++ ['}']))))))) := by
      intro n low high c; simp
    rw [form, form] at h
    obtain ⟨h1, h⟩ := split_comma (toString_noComma _) (toString_noComma _) (List.append_cancel_left h)
    obtain ⟨h2, h⟩ := split_comma (hT.noComma _) (hT.noComma _) (List.append_cancel_left h)
    have nc : ∀ x : T, ',' ∉ (Disp.fmt none x).toList ++ [')'] := by
      intro x hx
      rcases List.mem_append.1 hx with hx | hx
      · exact hT.noComma _ hx
      · exact absurd hx (by decide)
    obtain ⟨h3, h⟩ := split_comma (nc _) (nc _) (List.cons.inj h).2
    refine ⟨?_, hT.inj _ _ (String.toList_inj.1 h2), hT.inj _ _ (String.toList_inj.1 (List.append_cancel_right h3)), String.toList_inj.1 (List.append_cancel_right (List.append_cancel_left h))⟩
    exact Nat.repr_injective (String.toList_inj.1 h1)
  · rintro ⟨rfl, rfl, rfl, rfl⟩; rfl

theorem NumericAxis.text_form [Cfg] {T : Type} [Disp T] [RNum T] (a : NumericAxis T) {s : String} (h : a.text = .ok s) (hfit : a.Fits) :
    ∃ lo hi, a.low = some lo ∧ a.high = some hi ∧ s = axisText a.bins lo hi a.cls := by
  have add : ∀ {n k : Nat}, n + k < usizeSize → uadd n k = .ok (n + k) := fun h => by
    unfold uadd uwrap; rw [if_pos h]
  have sub : ∀ {n k : Nat}, k ≤ n → usub n k = .ok (n - k) := fun h => if_pos h
  have uni : ∀ u : Uniform T, u.num + 2 < usizeSize → UniformNoFlow.numBins ⟨u⟩ = .ok u.num := by
    intro u hu
    show (uadd u.num 2 >>= fun n => usub n 2) = _
    rw [add hu]
    show usub (u.num + 2) 2 = _
    rw [sub (by omega)]
    congr 1
  have ends : ∀ l : List T, (∃ p, expect l.head? = (.error p : Res T)) ∨ ∃ lo hi, l.head? = some lo ∧ l.getLast? = some hi ∧ 1 ≤ l.length := by
    intro l
    cases l with
    | nil => exact .inl ⟨_, rfl⟩
    | cons x l => exact .inr ⟨x, (x :: l).getLast (by simp), rfl, List.getLast?_eq_getLast_of_ne_nil (by simp), by simp⟩
  have var : ∀ (l : List T) (c : String) (m : Res Nat), (1 ≤ l.length → m = .ok (l.length - 1)) →
      (m >>= fun n => expect l.head? >>= fun lo => expect l.getLast? >>= fun hi => (pure (axisText n lo hi c) : Res String)) = .ok s →
      ∃ lo hi, l.head? = some lo ∧ l.getLast? = some hi ∧ s = axisText (l.length - 1) lo hi c := by
    intro l c m hm h
    rcases ends l with ⟨p, hp⟩ | ⟨lo, hi, h1, h2, h3⟩
    · rw [hp] at h
      rcases m with q | n <;> cases h
    · rw [hm h3, h1, h2] at h
      cases h
      exact ⟨lo, hi, h1, h2, rfl⟩
  have nf : ∀ v : Variable T, (NumericAxis.variable v).Fits → 1 ≤ v.binEdges.length → VariableNoFlow.numBins ⟨v⟩ = .ok (v.binEdges.length - 1) := by
    intro v hf h1
    have hf : v.binEdges.length - 1 + 2 < usizeSize := hf
    show (uadd v.binEdges.length 1 >>= fun n => usub n 2) = _
    rw [add (by omega)]
    show usub (v.binEdges.length + 1) 2 = _
    rw [sub (by omega)]
    congr 1
  cases a with
  | uniform a => cases h; exact ⟨_, _, rfl, rfl, rfl⟩
  | uniformNoFlow a =>
    obtain ⟨u⟩ := a
    have h : (UniformNoFlow.numBins ⟨u⟩ >>= fun n => (pure (axisText n u.low u.high "UniformNoFlow") : Res String)) = .ok s := h
    rw [uni u hfit] at h; cases h
    exact ⟨_, _, rfl, rfl, rfl⟩
  | uniformCyclic a =>
    obtain ⟨⟨u⟩⟩ := a
    have h : (UniformNoFlow.numBins ⟨u⟩ >>= fun n => (pure (axisText n u.low u.high "UniformCyclic") : Res String)) = .ok s := h
    rw [uni u hfit] at h; cases h
    exact ⟨_, _, rfl, rfl, rfl⟩
  | «variable» a => exact var a.binEdges "Variable" _ (fun h1 => sub h1) h
  | variableNoFlow a => obtain ⟨v⟩ := a; exact var v.binEdges "VariableNoFlow" _ (nf v hfit) h
  | variableCyclic a => obtain ⟨⟨v⟩⟩ := a; exact var v.binEdges "VariableCyclic" _ (nf v hfit) h

/-- **C93 (the text of a numeric axis).** The text of a uniform or variable axis tells its kind, its number of bins and its two ends, and nothing else: axes that print the same agree in these, and axes that agree print the same. -/
theorem C93_axis_text [Cfg] {T : Type} [Disp T] [RNum T] (hT : PlainText T none) {a b : NumericAxis T} {s t : String} (ha : a.Fits) (hb : b.Fits) (hs : a.text = .ok s) (ht : b.text = .ok t) :
    s = t ↔ a.bins = b.bins ∧ a.low = b.low ∧ a.high = b.high ∧ a.cls = b.cls := by
  obtain ⟨lo, hi, h1, h2, rfl⟩ := a.text_form hs ha
  obtain ⟨lo', hi', h1', h2', rfl⟩ := b.text_form ht hb
  rw [axisText_inj hT, h1, h1', h2, h2', Option.some.injEq, Option.some.injEq]

/-- **C93 (the text of a uniform axis).** Two float axes made by `Uniform::new` that print the same are the same axis. -/
theorem C93_uniform_text [Cfg] {F : FFmt} {n n' : Nat} {l h l' h' : Flt F} {a a' : Uniform (Flt F)} (ha : Uniform.new n l h = .ok (.ok a)) (ha' : Uniform.new n' l' h' = .ok (.ok a')) :
    letI : Disp (Flt F) := Flt.text
    a.display = a'.display ↔ a = a' := by
  let _ : Disp (Flt F) := Flt.text
  have key : ∀ {n : Nat} {l h : Flt F} {a : Uniform (Flt F)}, Uniform.new n l h = .ok (.ok a) → a.step = Flt.div (Flt.sub a.high a.low) (Flt.ofRat a.num) := by
    intro n l h a ha
    rw [Uniform.new_flt] at ha
    injection ha with ha
    split at ha
    · cases ha
    · split at ha
      · cases ha
      · split at ha <;> (injection ha with ha; subst ha; rfl)
  constructor
  · intro hh
    obtain ⟨h1, h2, h3, -⟩ := (axisText_inj C93_plain_text).1 hh
    have k1 := key ha
    have k2 := key ha'
    cases a; cases a'
    simp only at h1 h2 h3 k1 k2
    subst h1 h2 h3
    rw [k1, k2]
  · rintro rfl; rfl

/-! ## Histograms -/

section
attribute [local instance] Flt.text

/-- **C93 (the header of a histogram of counts).** A dense histogram whose values convert to whole numbers of total size at most `2^53` prints the number of its bins and its exact total, in decimal. -/
theorem C93_header [cfg : Cfg] {A V : Type} [Axis A] (hbits : cfg.usizeBits = 64) [Disp (Axis.Interval A)] {h : VecHistogram A V} {n : Nat} (ok : h.Ok n) (into : V → F64) (prec : Option Nat)
    (z : V → Int) (hz : ∀ v ∈ h.values, into v = f64 (z v : ℚ)) (hsum : (h.values.map fun v => |z v|).sum ≤ 2 ^ 53) :
    ∃ rows, h.display into (fun _ => true) prec = .ok (("VecHistogram" ++ toString (Axis.numDim h.axes) ++ "D(" ++ toString n ++ " bins, sum=" ++
        toString (h.values.map z).sum ++ ")") :: rows, true) ∧ rows.length = min 50 n := by
  obtain ⟨rows, h1, h2⟩ := C68_whole_numbers hbits ok into prec z hz hsum
  have hle : ∀ l : List V, |(l.map z).sum| ≤ (l.map fun v => |z v|).sum := by
    intro l
    induction l with
    | nil => simp
    | cons v l ih => simp only [List.map_cons, List.sum_cons]; exact (abs_add_le _ _).trans (by linarith)
  rw [show Disp.fmt none (f64 (((h.values.map z).sum : Int) : ℚ)) = toString (h.values.map z).sum from C93_whole _ ((hle _).trans hsum)] at h1
  exact ⟨rows, h1, h2⟩

/-- **C93 (the header of a sparse histogram of counts).** -/
theorem C93_sparse_header [cfg : Cfg] {A V : Type} [Axis A] {h : HashHistogram A V} {n : Nat} (ok : h.Ok n) (into : V → F64) (o : h.values.Order)
    (z : V → Int) (hz : ∀ kv ∈ h.values.entries, into kv.2 = f64 (z kv.2 : ℚ)) (hsum : (h.values.entries.map fun kv => |z kv.2|).sum ≤ 2 ^ 53) :
    HashHistogram.display into h.axes (h.valuesIter o) = .ok ("HashHistogram" ++ toString (Axis.numDim h.axes) ++ "D(" ++ toString n ++ " bins, sum=" ++
        toString (h.values.entries.map fun kv => z kv.2).sum ++ ")") := by
  have h1 := C68_sparse_whole_numbers ok into o z hz hsum
  have hle : ∀ l : List (Nat × V), |(l.map fun kv => z kv.2).sum| ≤ (l.map fun kv => |z kv.2|).sum := by
    intro l
    induction l with
    | nil => simp
    | cons v l ih => simp only [List.map_cons, List.sum_cons]; exact (abs_add_le _ _).trans (by linarith)
  rw [show Disp.fmt none (f64 (((h.values.entries.map fun kv => z kv.2).sum : Int) : ℚ)) = toString (h.values.entries.map fun kv => z kv.2).sum from C93_whole _ ((hle _).trans hsum)] at h1
  exact h1

section
attribute [local instance] dbg64

/-- The printed rows of a histogram with the axis `Uniform::new(1000, 0.0, 1.0)` do not tell its bins apart: with the two decimals that are the default, bins 1 and 2 are both printed as `[0.00, 0.00)`. -/
theorem C93_counterexample_precision :
    ((Uniform.new 1000 (f64 0) (f64 1)).bind fun r => match r with
      | .ok a => do return ((← a.bin 1).map (Disp.fmt (some 2)), (← a.bin 2).map (Disp.fmt (some 2)))
      | .error _ => .ok (none, none)) = .ok (some "[0.00, 0.00)", some "[0.00, 0.00)") := by
  decide +kernel
end
end
end NdHist
