import Verif.Spec
import Verif.Lemmas.Basic
import Mathlib.Tactic.Ring
import Mathlib.Tactic.Linarith
import Mathlib.Tactic.Positivity
import Mathlib.Algebra.BigOperators.Group.List.Basic
/-! Helper lemmas about tuples of axes. -/
set_option linter.unusedSectionVars false
namespace NdHist

theorem prod_pos' {ns : List Nat} (h : ∀ n ∈ ns, 0 < n) : 0 < ns.prod := by
  induction ns with
  | nil => simp
  | cons n ns ih =>
    rw [List.prod_cons]
    exact Nat.mul_pos (h n (by simp)) (ih (fun m hm => h m (by simp [hm])))

theorem cellNumber_w (w : Nat) (ns is : List Nat) : cellNumber w ns is = w * cellNumber 1 ns is := by
  induction ns generalizing w is with
  | nil => cases is <;> simp [cellNumber]
  | cons n ns ih =>
    cases is with
    | nil => simp [cellNumber]
    | cons i is =>
      simp only [cellNumber]
      rw [ih, ih (1 * n)]
      ring

theorem cellNumber_cons (n : Nat) (ns : List Nat) (i : Nat) (is : List Nat) :
    cellNumber 1 (n :: ns) (i :: is) = i + n * cellNumber 1 ns is := by
  simp only [cellNumber, one_mul]
  rw [cellNumber_w]

theorem cellNumber_lt {ns is : List Nat} (h : InGrid ns is) : cellNumber 1 ns is < ns.prod := by
  induction ns generalizing is with
  | nil => cases h; simp [cellNumber]
  | cons n ns ih =>
    cases h with
    | cons hi hr =>
      rename_i i is
      rw [cellNumber_cons, List.prod_cons]
      have := ih hr
      have : n * (cellNumber 1 ns is + 1) ≤ n * ns.prod := Nat.mul_le_mul_left _ this
      rw [Nat.mul_add] at this
      omega

/-- the grid cell with a given number -/
def cellOf (N : Nat) : List Nat → List Nat
  | [] => []
  | n :: ns => N % n :: cellOf (N / n) ns

theorem cellOf_inGrid {ns : List Nat} (h : ∀ n ∈ ns, 0 < n) (N : Nat) : InGrid ns (cellOf N ns) := by
  induction ns generalizing N with
  | nil => exact List.Forall₂.nil
  | cons n ns ih =>
    exact List.Forall₂.cons (Nat.mod_lt _ (h n (by simp))) (ih (fun m hm => h m (by simp [hm])) _)

theorem cellOf_cellNumber {ns is : List Nat} (h : InGrid ns is) : cellOf (cellNumber 1 ns is) ns = is := by
  induction ns generalizing is with
  | nil => cases h; rfl
  | cons n ns ih =>
    cases h with
    | cons hi hr =>
      rename_i i is
      rw [cellNumber_cons]
      unfold cellOf
      have hn : 0 < n := by omega
      rw [Nat.add_mul_mod_self_left, Nat.mod_eq_of_lt hi, Nat.add_mul_div_left _ _ hn, Nat.div_eq_of_lt hi,
        Nat.zero_add, ih hr]

theorem cellNumber_cellOf {ns : List Nat} {N : Nat} (h : N < ns.prod) : cellNumber 1 ns (cellOf N ns) = N := by
  induction ns generalizing N with
  | nil => simp at h; simp [cellOf, cellNumber, h]
  | cons n ns ih =>
    rw [List.prod_cons] at h
    have hn : 0 < n := by
      rcases Nat.eq_zero_or_pos n with rfl | h'
      · simp at h
      · exact h'
    unfold cellOf
    rw [cellNumber_cons, ih (Nat.div_lt_of_lt_mul h)]
    exact Nat.mod_add_div N n

theorem cellOf_add_prod {ns : List Nat} (N : Nat) (hpos : ∀ n ∈ ns, 0 < n) :
    cellOf (N + ns.prod) ns = cellOf N ns := by
  induction ns generalizing N with
  | nil => rfl
  | cons n ns ih =>
    have hn : 0 < n := hpos n (by simp)
    unfold cellOf
    rw [List.prod_cons, Nat.add_mul_mod_self_left, Nat.add_mul_div_left _ _ hn,
      ih _ (fun m hm => hpos m (by simp [hm]))]

section
variable [Cfg]

/-- prefix products -/
def prefixProd (w : Nat) : List Nat → List Nat
  | [] => []
  | n :: ns => w * n :: prefixProd (w * n) ns

theorem prefixProd_length (w : Nat) (ns : List Nat) : (prefixProd w ns).length = ns.length := by
  induction ns generalizing w with
  | nil => rfl
  | cons n ns ih => simp [prefixProd, ih]

theorem scanProd_ok {ns : List Nat} {w : Nat} (hpos : ∀ n ∈ ns, 0 < n) (h : w * ns.prod < usizeSize) :
    scanProd w ns = .ok (prefixProd w ns) := by
  induction ns generalizing w with
  | nil => rfl
  | cons n ns ih =>
    rw [List.prod_cons, ← Nat.mul_assoc] at h
    have hp : 0 < ns.prod := by
      exact prod_pos' (fun m hm => hpos m (by simp [hm]))
    have h1 : w * n < usizeSize := lt_of_le_of_lt (Nat.le_mul_of_pos_right _ hp) h
    unfold scanProd
    rw [umul_ok h1]
    simp only [Res.ok_bind]
    rw [ih (fun m hm => hpos m (by simp [hm])) h]
    rfl

theorem foldlM_sum (l : List (Nat × Nat)) (acc : Nat)
    (h : acc + (l.map (fun p => p.1 * p.2)).sum < usizeSize) :
    l.foldlM (fun acc (ni : Nat × Nat) => do
      let p ← umul ni.1 ni.2
      uadd acc p) acc = .ok (acc + (l.map (fun p => p.1 * p.2)).sum) := by
  induction l generalizing acc with
  | nil => simp
  | cons p l ih =>
    simp only [List.map_cons, List.sum_cons] at h ⊢
    rw [List.foldlM_cons, umul_ok (by omega)]
    simp only [Res.ok_bind]
    rw [uadd_ok (by omega)]
    simp only [Res.ok_bind]
    rw [ih _ (by omega)]
    congr 1; omega

theorem zip_dropLast_sum {ns : List Nat} {is : List Nat} (w n : Nat) (hlen : is.length = ns.length) :
    (((prefixProd w (n :: ns)).dropLast.zip is).map (fun p => p.1 * p.2)).sum = cellNumber (w * n) ns is := by
  induction ns generalizing w n is with
  | nil =>
    cases is with
    | nil => simp [cellNumber]
    | cons i is => simp at hlen
  | cons m ns ih =>
    cases is with
    | nil => simp at hlen
    | cons i is =>
      simp only [List.length_cons, Nat.add_right_cancel_iff] at hlen
      have hne : prefixProd (w * n) (m :: ns) ≠ [] := by simp [prefixProd]
      have : (prefixProd w (n :: m :: ns)).dropLast = (w * n) :: (prefixProd (w * n) (m :: ns)).dropLast := by
        show ((w * n) :: prefixProd (w * n) (m :: ns)).dropLast = _
        rw [List.dropLast_cons_of_ne_nil hne]
      rw [this]
      simp only [List.zip_cons_cons, List.map_cons, List.sum_cons, cellNumber]
      rw [ih (w * n) m hlen]

/-- the bin number computed from per-axis bin numbers -/
theorem flatten_ok {ns is : List Nat} (hg : InGrid ns is) (hne : ns ≠ []) (h : ns.prod < usizeSize) :
    AxesTuple.flatten (prefixProd 1 ns) is = .ok (cellNumber 1 ns is) := by
  cases ns with
  | nil => simp at hne
  | cons n ns =>
    have hlt := cellNumber_lt hg
    cases hg with
    | cons hi hr =>
      rename_i i is
      have hlen : is.length = ns.length := hr.length_eq
      have hz : ((prefixProd 1 (n :: ns)).reverse.drop 1).zip (i :: is).reverse =
          ((prefixProd 1 (n :: ns)).dropLast.zip is).reverse := by
        have hl : (prefixProd 1 (n :: ns)).dropLast.length = is.length := by
          rw [List.length_dropLast, prefixProd_length]; simp [hlen]
        rw [List.drop_one, List.tail_reverse, List.reverse_cons]
        have : (prefixProd 1 (n :: ns)).dropLast.reverse =
            (prefixProd 1 (n :: ns)).dropLast.reverse ++ [] := by simp
        rw [this, List.zip_append (by simp [hl])]
        rw [List.zip_nil_left, List.append_nil]
        exact (List.reverse_zipWith hl).symm
      unfold AxesTuple.flatten
      simp only [indexSlice, List.getElem?_cons_zero, Res.ok_bind]
      rw [hz]
      have hsum := zip_dropLast_sum 1 n (is := is) hlen
      have hval : i + cellNumber (1 * n) ns is = cellNumber 1 (n :: ns) (i :: is) := by
        simp [cellNumber]
      rw [foldlM_sum]
      · rw [List.map_reverse, List.sum_reverse, hsum, hval]
      · rw [List.map_reverse, List.sum_reverse, hsum, hval]; omega

theorem digits_ok {ns : List Nat} (hpos : ∀ n ∈ ns, 0 < n) (hfit : ∀ n ∈ ns, n < usizeSize) (N : Nat) :
    digits N ns = .ok (cellOf N ns) := by
  induction ns generalizing N with
  | nil => rfl
  | cons n ns ih =>
    have hn : n ≠ 0 := (hpos n (by simp)).ne'
    have hf := hfit n (by simp)
    unfold digits
    rw [umul_ok (by simpa using hf)]
    simp only [Res.ok_bind, one_mul, urem, udiv, hn, if_false]
    rw [ih (fun m hm => hpos m (by simp [hm])) (fun m hm => hfit m (by simp [hm]))]
    rfl

theorem foldlM_umul {ns : List Nat} {w : Nat} (hpos : ∀ n ∈ ns, 0 < n) (h : w * ns.prod < usizeSize) :
    ns.foldlM umul w = .ok (w * ns.prod) := by
  induction ns generalizing w with
  | nil => simp
  | cons n ns ih =>
    rw [List.prod_cons, ← Nat.mul_assoc] at h
    have hp : 0 < ns.prod := prod_pos' (fun m hm => hpos m (by simp [hm]))
    have h1 : w * n < usizeSize := lt_of_le_of_lt (Nat.le_mul_of_pos_right _ hp) h
    rw [List.foldlM_cons, umul_ok h1]
    simp only [Res.ok_bind]
    rw [ih (fun m hm => hpos m (by simp [hm])) h, List.prod_cons, Nat.mul_assoc]

theorem Tup.numBinsList_cons {t : AxTy} {ts : List AxTy} (a : t.A) (as : Tup ts) :
    Tup.numBinsList (ts := t :: ts) (a, as) = (do
      let n ← Axis.numBins a
      let ns ← numBinsList as
      return n :: ns) := rfl

theorem Tup.indices_cons {t : AxTy} {ts : List AxTy} (a : t.A) (as : Tup ts) (c : Axis.Coordinate t.A)
    (cs : Coords ts) :
    Tup.indices (ts := t :: ts) (a, as) (c, cs) = (do
      match ← Axis.index a c with
      | none => return none
      | some i =>
        match ← indices as cs with
        | none => return none
        | some is => return some (i :: is)) := rfl

theorem Tup.bins_cons {t : AxTy} {ts : List AxTy} (a : t.A) (as : Tup ts) (i : Nat) (is : List Nat) :
    Tup.bins (ts := t :: ts) (a, as) (i :: is) = (do
      match ← Axis.bin a i with
      | none => return none
      | some b =>
        match ← bins as is with
        | none => return none
        | some bs => return some (b, bs)) := rfl

theorem numBinsList_ok {ts : List AxTy} {t : Tup ts} {ns : List Nat} (h : TupLawful t ns) :
    t.numBinsList = .ok ns := by
  induction ts generalizing ns with
  | nil => simp only [TupLawful] at h; subst h; rfl
  | cons a ts ih =>
    obtain ⟨x, xs⟩ := t
    obtain ⟨n, ns', rfl, h1, h2⟩ := h
    rw [Tup.numBinsList_cons, h1.numBins, ih h2]
    rfl

theorem TupLawful.length {ts : List AxTy} {t : Tup ts} {ns : List Nat} (h : TupLawful t ns) :
    ns.length = ts.length := by
  induction ts generalizing ns with
  | nil => simp only [TupLawful] at h; subst h; rfl
  | cons a ts ih =>
    obtain ⟨x, xs⟩ := t
    obtain ⟨n, ns', rfl, h1, h2⟩ := h
    simp [ih h2]

theorem TupLawful.fits {ts : List AxTy} {t : Tup ts} {ns : List Nat} (h : TupLawful t ns) :
    ∀ n ∈ ns, n < usizeSize := by
  induction ts generalizing ns with
  | nil => simp only [TupLawful] at h; subst h; simp
  | cons a ts ih =>
    obtain ⟨x, xs⟩ := t
    obtain ⟨n, ns', rfl, h1, h2⟩ := h
    intro m hm
    simp only [List.mem_cons] at hm
    rcases hm with rfl | hm
    · exact h1.fits
    · exact ih h2 m hm

/-- `indices` succeeds exactly with the per-axis bin numbers -/
theorem indices_some {ts : List AxTy} {t : Tup ts} {c : Coords ts} {is : List Nat} :
    t.indices c = .ok (some is) ↔ IndexOf t c is := by
  induction ts generalizing is with
  | nil => simp [Tup.indices, IndexOf, eq_comm]
  | cons a ts ih =>
    obtain ⟨x, xs⟩ := t
    obtain ⟨c, cs⟩ := c
    rw [Tup.indices_cons]
    have hIO : IndexOf (ts := a :: ts) (x, xs) (c, cs) is ↔ ∃ i is', is = i :: is' ∧ Axis.index x c = .ok (some i) ∧ IndexOf xs cs is' := Iff.rfl
    rw [hIO]
    cases h : Axis.index x c with
    | error p => simp
    | ok o =>
      cases o with
      | none => simp
      | some i =>
        simp only [Res.ok_bind]
        cases h2 : Tup.indices xs cs with
        | error p =>
          simp only [Res.error_bind, reduceCtorEq, false_iff]
          rintro ⟨i', is', rfl, _, h4⟩
          rw [← ih, h2] at h4; simp at h4
        | ok o =>
          cases o with
          | none =>
            simp only [Res.ok_bind, Res.pure_eq, Except.ok.injEq, reduceCtorEq, false_iff]
            rintro ⟨i', is', rfl, _, h4⟩
            rw [← ih, h2] at h4; simp at h4
          | some js =>
            simp only [Res.ok_bind, Res.pure_eq, Except.ok.injEq, Option.some.injEq]
            constructor
            · rintro rfl
              exact ⟨i, js, rfl, rfl, ih.mp h2⟩
            · rintro ⟨i', is', rfl, h3, h4⟩
              rw [← ih, h2] at h4
              simp at h4
              simp [h3, h4]

theorem indices_none {ts : List AxTy} {t : Tup ts} {c : Coords ts} (ht : TupTotal t c) :
    (t.indices c = .ok none ↔ SomeUncovered t c) ∧ ∃ o, t.indices c = .ok o := by
  induction ts with
  | nil => simp [Tup.indices, SomeUncovered]
  | cons a ts ih =>
    obtain ⟨x, xs⟩ := t
    obtain ⟨c, cs⟩ := c
    obtain ⟨⟨o, ho⟩, h2⟩ := ht
    obtain ⟨ih1, o', ho'⟩ := ih h2
    rw [Tup.indices_cons]
    have hSU : SomeUncovered (ts := a :: ts) (x, xs) (c, cs) ↔ Axis.index x c = .ok none ∨ SomeUncovered xs cs := Iff.rfl
    rw [hSU]
    rw [ho, ← ih1, ho']
    cases o with
    | none => simp
    | some i => cases o' <;> simp

theorem IndexOf.inGrid {ts : List AxTy} {t : Tup ts} {c : Coords ts} {is ns : List Nat} (hl : TupLawful t ns)
    (h : IndexOf t c is) : InGrid ns is := by
  induction ts generalizing is ns with
  | nil => simp only [TupLawful, IndexOf] at *; subst hl; subst h; exact List.Forall₂.nil
  | cons a ts ih =>
    obtain ⟨x, xs⟩ := t
    obtain ⟨c, cs⟩ := c
    obtain ⟨n, ns', rfl, h1, h2⟩ := hl
    obtain ⟨i, is', rfl, h3, h4⟩ := h
    exact List.Forall₂.cons (h1.index_lt _ _ h3) (ih h2 h4)

theorem bins_ok {ts : List AxTy} {t : Tup ts} {is ns : List Nat} (hl : TupLawful t ns) (hg : InGrid ns is) :
    ∃ bs, t.bins is = .ok (some bs) ∧ BinsOf t is bs := by
  induction ts generalizing is ns with
  | nil =>
    simp only [TupLawful] at hl; subst hl
    cases hg
    exact ⟨(), rfl, rfl⟩
  | cons a ts ih =>
    obtain ⟨x, xs⟩ := t
    obtain ⟨n, ns', rfl, h1, h2⟩ := hl
    cases hg with
    | cons hi hr =>
      rename_i i is
      obtain ⟨b, hb⟩ := h1.bin_some i hi
      obtain ⟨bs, hbs, hbs2⟩ := ih h2 hr
      refine ⟨(b, bs), ?_, i, is, rfl, hb, hbs2⟩
      rw [Tup.bins_cons, hb]
      simp only [Res.ok_bind]
      rw [hbs]
      rfl

theorem BinsOf.unique {ts : List AxTy} {t : Tup ts} {is : List Nat} {bs bs' : Intervals ts}
    (h : BinsOf t is bs) (h' : BinsOf t is bs') : bs = bs' := by
  induction ts generalizing is with
  | nil => rfl
  | cons a ts ih =>
    obtain ⟨x, xs⟩ := t
    obtain ⟨b, bs⟩ := bs
    obtain ⟨b', bs'⟩ := bs'
    obtain ⟨i, is', rfl, h1, h2⟩ := h
    obtain ⟨i', is'', he, h1', h2'⟩ := h'
    simp at he
    obtain ⟨rfl, rfl⟩ := he
    rw [h1] at h1'
    simp at h1'
    rw [h1', ih h2 h2']

end
end NdHist
