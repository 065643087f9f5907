import Verif.Model.Order
import Verif.Lemmas.Ord
import Verif.Props.UniformInt
import Verif.Props.Variable
/-!
# C60: comparing the crate's objects

Every type of the crate but the category axes and the sparse histogram derives `PartialOrd` (and `Ord` where the fields are `Ord`). Code that sorts bins or
histograms, or keeps them in ordered containers, relies on the contract of these traits.
-/
set_option linter.unusedSectionVars false
namespace NdHist

/-- The contract of `PartialOrd` (and `PartialEq`) of the Rust standard library: `==` agrees with `partial_cmp`, exchanging the arguments reverses the answer,
`<` is transitive, and equal values compare alike. -/
structure CmpLaws {T : Type} (eq : T → T → Bool) (cmp : T → T → Option Ordering) : Prop where
  eq_iff : ∀ a b, eq a b = true ↔ cmp a b = some .eq
  dual : ∀ a b, cmp b a = (cmp a b).map Ordering.swap
  trans : ∀ a b c, cmp a b = some .lt → cmp b c = some .lt → cmp a c = some .lt
  eq_left : ∀ a b c, cmp a b = some .eq → cmp a c = cmp b c

/-- The contract of `Ord` and `Eq`: in addition any two values are comparable, and (for the types considered here) only identical ones compare equal. -/
structure TotalLaws {T : Type} (eq : T → T → Bool) (cmp : T → T → Option Ordering) : Prop extends CmpLaws eq cmp where
  total : ∀ a b, ∃ o, cmp a b = some o
  ident : ∀ a b, cmp a b = some .eq ↔ a = b

namespace CmpLaws
variable {T : Type} {eq eq' : T → T → Bool} {cmp cmp' : T → T → Option Ordering}

theorem eq_right (h : CmpLaws eq cmp) {a b c : T} (hbc : cmp b c = some .eq) : cmp a b = cmp a c := by
  have h1 := h.dual b a
  have h2 := h.dual c a
  rw [h1, h2, h.eq_left b c a hbc]

theorem comap {S : Type} (h : CmpLaws eq cmp) (f : S → T) : CmpLaws (fun a b => eq (f a) (f b)) (fun a b => cmp (f a) (f b)) :=
  ⟨fun a b => h.eq_iff _ _, fun a b => h.dual _ _, fun a b c => h.trans _ _ _, fun a b c => h.eq_left _ _ _⟩

/-- lexicographic combination -/
theorem lex (h : CmpLaws eq cmp) (h' : CmpLaws eq' cmp') :
    CmpLaws (fun a b => eq a b && eq' a b) (fun a b => thenCmp (cmp a b) (cmp' a b)) := by
  refine ⟨?_, ?_, ?_, ?_⟩
  · intro a b
    simp only [Bool.and_eq_true, h.eq_iff, h'.eq_iff]
    unfold thenCmp
    split <;> simp_all
  · intro a b
    simp only [h.dual a b, h'.dual a b]
    unfold thenCmp
    cases cmp a b with
    | none => rfl
    | some o => cases o <;> rfl
  · intro a b c h1 h2
    have key : ∀ a b : T, thenCmp (cmp a b) (cmp' a b) = some .lt ↔ cmp a b = some .lt ∨ (cmp a b = some .eq ∧ cmp' a b = some .lt) := by
      intro a b; unfold thenCmp; split <;> simp_all
    rw [key] at *
    rcases h1 with h1 | ⟨h1, h1'⟩ <;> rcases h2 with h2 | ⟨h2, h2'⟩
    · exact .inl (h.trans _ _ _ h1 h2)
    · left; rw [← h.eq_right h2]; exact h1
    · left; rw [h.eq_left _ _ _ h1]; exact h2
    · right; exact ⟨by rw [h.eq_left _ _ _ h1]; exact h2, h'.trans _ _ _ h1' h2'⟩
  · intro a b c h1
    have : cmp a b = some .eq ∧ cmp' a b = some .eq := by
      revert h1; unfold thenCmp; split <;> simp_all
    simp only [h.eq_left _ _ _ this.1, h'.eq_left _ _ _ this.2]

end CmpLaws

namespace TotalLaws
variable {T : Type} {eq eq' : T → T → Bool} {cmp cmp' : T → T → Option Ordering}

theorem thenCmp_some (h : ∀ a b, ∃ o, cmp a b = some o) (h' : ∀ a b, ∃ o, cmp' a b = some o) (a b : T) : ∃ o, thenCmp (cmp a b) (cmp' a b) = some o := by
  obtain ⟨o, ho⟩ := h a b
  obtain ⟨o', ho'⟩ := h' a b
  rw [ho, ho']
  cases o <;> exact ⟨_, rfl⟩

theorem thenCmp_eq {o o' : Option Ordering} : thenCmp o o' = some .eq ↔ o = some .eq ∧ o' = some .eq := by
  unfold thenCmp; split <;> simp_all

end TotalLaws

/-! ## Numbers -/

section
variable {T : Type} [POrd T] [LawfulPOrd T]
open LawfulPOrd

/-- numbers, including floats with NaN, satisfy the contract -/
theorem cmpLaws_num : CmpLaws (POrd.eq (T := T)) POrd.pcmp := by
  refine ⟨fun a b => by simp [POrd.eq], ?_, ?_, ?_⟩
  · intro a b
    rw [pcmp_eq, pcmp_eq]
    cases key a <;> cases key b <;> simp [cmp_swap]
  · intro a b c
    rw [pcmp_eq, pcmp_eq, pcmp_eq]
    cases key a <;> cases key b <;> cases key c <;> simp [cmp_eq_lt_iff]
    exact lt_trans
  · intro a b c
    rw [pcmp_eq, pcmp_eq, pcmp_eq]
    cases key a <;> cases key b <;> simp [cmp_eq_eq_iff]
    intro h; rw [h]
end

theorem totalLaws_int [Cfg] {τ : IntTy} : TotalLaws (POrd.eq (T := MInt τ)) POrd.pcmp := by
  refine ⟨cmpLaws_num, fun a b => ⟨_, MInt.pcmp_eq a b⟩, fun a b => ?_⟩
  rw [MInt.pcmp_eq]
  simp only [Option.some.injEq, compare_eq_iff_eq]
  exact ⟨MInt.ext, fun h => h ▸ rfl⟩

theorem totalLaws_nat : TotalLaws (fun a b : Nat => a == b) natPOrd.pcmp := by
  have e : ∀ a b : Nat, natPOrd.pcmp a b = some (compare a b) := fun _ _ => rfl
  refine ⟨⟨?_, ?_, ?_, ?_⟩, fun a b => ⟨_, rfl⟩, fun a b => by rw [e]; simp⟩
  · intro a b; rw [e]; simp
  · intro a b; rw [e, e]; simp [Nat.compare_swap]
  · intro a b c; rw [e, e, e]; simp only [Option.some.injEq, Nat.compare_eq_lt]; omega
  · intro a b c; rw [e, e, e]; simp only [Option.some.injEq, Nat.compare_eq_eq]; rintro rfl; rfl

/-! ## Vectors -/

section
variable {T : Type} [PEq T] [POrd T]

theorem cmpLaws_vec (h : CmpLaws (PEq.peq (A := T)) POrd.pcmp) : CmpLaws (vecEq (T := T)) vecCmp := by
  have tc : ∀ {o o' : Option Ordering}, thenCmp o o' = some .eq ↔ o = some .eq ∧ o' = some .eq := TotalLaws.thenCmp_eq
  have tl : ∀ {o o' : Option Ordering}, thenCmp o o' = some .lt ↔ o = some .lt ∨ (o = some .eq ∧ o' = some .lt) := by
    intro o o'; unfold thenCmp; split <;> simp_all
  refine ⟨?_, ?_, ?_, ?_⟩
  · intro a
    induction a with
    | nil => intro b; cases b <;> simp [vecEq, vecCmp]
    | cons x xs ih =>
      intro b
      cases b with
      | nil => simp [vecEq, vecCmp]
      | cons y ys => simp only [vecEq, vecCmp, Bool.and_eq_true, tc, h.eq_iff, ih]
  · intro a
    induction a with
    | nil => intro b; cases b <;> rfl
    | cons x xs ih =>
      intro b
      cases b with
      | nil => rfl
      | cons y ys =>
        simp only [vecCmp, h.dual x y, ih ys]
        unfold thenCmp
        cases POrd.pcmp x y with
        | none => rfl
        | some o => cases o <;> rfl
  · intro a
    induction a with
    | nil => intro b c; cases b <;> cases c <;> simp [vecCmp]
    | cons x xs ih =>
      intro b c
      cases b with
      | nil => simp [vecCmp]
      | cons y ys =>
        cases c with
        | nil => simp [vecCmp]
        | cons z zs =>
          simp only [vecCmp, tl]
          rintro (h1 | ⟨h1, h1'⟩) (h2 | ⟨h2, h2'⟩)
          · exact .inl (h.trans _ _ _ h1 h2)
          · left; rw [← h.eq_right h2]; exact h1
          · left; rw [h.eq_left _ _ _ h1]; exact h2
          · right; exact ⟨by rw [h.eq_left _ _ _ h1]; exact h2, ih _ _ h1' h2'⟩
  · intro a
    induction a with
    | nil => intro b c; cases b <;> simp [vecCmp]
    | cons x xs ih =>
      intro b c
      cases b with
      | nil => simp [vecCmp]
      | cons y ys =>
        cases c with
        | nil => simp [vecCmp]
        | cons z zs =>
          simp only [vecCmp, tc]
          rintro ⟨h1, h2⟩
          rw [h.eq_left _ _ _ h1, ih _ _ h2]

theorem totalLaws_vec (h : TotalLaws (PEq.peq (A := T)) POrd.pcmp) : TotalLaws (vecEq (T := T)) vecCmp := by
  refine ⟨cmpLaws_vec h.toCmpLaws, ?_, ?_⟩
  · intro a
    induction a with
    | nil => intro b; cases b <;> exact ⟨_, rfl⟩
    | cons x xs ih =>
      intro b
      cases b with
      | nil => exact ⟨_, rfl⟩
      | cons y ys =>
        obtain ⟨o, ho⟩ := h.total x y
        obtain ⟨o', ho'⟩ := ih ys
        simp only [vecCmp, ho, ho']
        cases o <;> exact ⟨_, rfl⟩
  · intro a
    induction a with
    | nil => intro b; cases b <;> simp [vecCmp]
    | cons x xs ih =>
      intro b
      cases b with
      | nil => simp [vecCmp]
      | cons y ys => simp only [vecCmp, TotalLaws.thenCmp_eq, h.ident, ih, List.cons.injEq]
end

theorem natVecEq_iff (a b : List Nat) : @vecEq Nat ⟨fun a b => a == b⟩ a b = decide (a = b) := by
  induction a generalizing b with
  | nil => cases b <;> simp [vecEq]
  | cons x xs ih =>
    cases b with
    | nil => simp [vecEq]
    | cons y ys =>
      simp only [vecEq, ih, List.cons.injEq, Bool.decide_and]
      congr 1

theorem totalLaws_shape : TotalLaws (fun a b : List Nat => decide (a = b)) (@vecCmp Nat natPOrd) := by
  have h := @totalLaws_vec Nat ⟨fun a b => a == b⟩ natPOrd totalLaws_nat
  have e : (@vecEq Nat ⟨fun a b => a == b⟩) = fun a b : List Nat => decide (a = b) := by
    funext a b; exact natVecEq_iff a b
  rw [e] at h
  exact h

/-! ## C60: the contract holds for every type of the crate -/

section
variable {T : Type} [PEq T] [POrd T]

/-- **C60 (bin intervals).** -/
theorem C60_bin_interval (h : CmpLaws (PEq.peq (A := T)) POrd.pcmp) : CmpLaws (PEq.peq (A := BinInterval T)) POrd.pcmp := by
  have l := (h.comap (fun p : T × T => p.1)).lex (h.comap (fun p : T × T => p.2))
  refine ⟨?_, ?_, ?_, ?_⟩
  · rintro (e | s | ⟨s, e⟩) (e' | s' | ⟨s', e'⟩)
    case Underflow.Underflow => exact h.eq_iff _ _
    case Overflow.Overflow => exact h.eq_iff _ _
    case Bin.Bin => exact l.eq_iff (s, e) (s', e')
    all_goals simp [PEq.peq, POrd.pcmp, BinInterval.variant] <;> decide
  · rintro (e | s | ⟨s, e⟩) (e' | s' | ⟨s', e'⟩)
    case Underflow.Underflow => exact h.dual _ _
    case Overflow.Overflow => exact h.dual _ _
    case Bin.Bin => exact l.dual (s, e) (s', e')
    all_goals rfl
  · rintro (e | s | ⟨s, e⟩) (e' | s' | ⟨s', e'⟩) (e'' | s'' | ⟨s'', e''⟩)
    case Underflow.Underflow.Underflow => exact h.trans _ _ _
    case Overflow.Overflow.Overflow => exact h.trans _ _ _
    case Bin.Bin.Bin => exact l.trans (s, e) (s', e') (s'', e'')
    all_goals intro h1 h2; first | rfl | (injection h1 with h; (try cases h); done) | (injection h2 with h; (try cases h); done)
  · rintro (e | s | ⟨s, e⟩) (e' | s' | ⟨s', e'⟩) (e'' | s'' | ⟨s'', e''⟩)
    case Underflow.Underflow.Underflow => exact h.eq_left _ _ _
    case Overflow.Overflow.Overflow => exact h.eq_left _ _ _
    case Bin.Bin.Bin => exact l.eq_left (s, e) (s', e') (s'', e'')
    all_goals intro h1; first | rfl | (injection h1 with h; (try cases h); done)

/-- **C60 (bin intervals over integers).** -/
theorem C60_bin_interval_total (h : TotalLaws (PEq.peq (A := T)) POrd.pcmp) : TotalLaws (PEq.peq (A := BinInterval T)) POrd.pcmp := by
  refine ⟨C60_bin_interval h.toCmpLaws, ?_, ?_⟩
  · rintro (e | s | ⟨s, e⟩) (e' | s' | ⟨s', e'⟩)
    case Underflow.Underflow => exact h.total _ _
    case Overflow.Overflow => exact h.total _ _
    case Bin.Bin =>
      obtain ⟨o, ho⟩ := h.total s s'
      obtain ⟨o', ho'⟩ := h.total e e'
      show ∃ o, thenCmp _ _ = some o
      rw [ho, ho']
      cases o <;> exact ⟨_, rfl⟩
    all_goals exact ⟨_, rfl⟩
  · rintro (e | s | ⟨s, e⟩) (e' | s' | ⟨s', e'⟩)
    case Underflow.Underflow => rw [BinInterval.Underflow.injEq, ← h.ident]; rfl
    case Overflow.Overflow => rw [BinInterval.Overflow.injEq, ← h.ident]; rfl
    case Bin.Bin => rw [BinInterval.Bin.injEq, ← h.ident, ← h.ident]; exact TotalLaws.thenCmp_eq
    all_goals simp [POrd.pcmp, BinInterval.variant]

/-- **C60 (intervals of category axes).** -/
theorem C60_single_value_interval (h : CmpLaws (PEq.peq (A := T)) POrd.pcmp) : CmpLaws (PEq.peq (A := SingleValueBinInterval T)) POrd.pcmp := by
  refine ⟨?_, ?_, ?_, ?_⟩
  · rintro (_ | v) (_ | v')
    case Bin.Bin => exact h.eq_iff _ _
    all_goals simp [PEq.peq, POrd.pcmp, SingleValueBinInterval.variant] <;> decide
  · rintro (_ | v) (_ | v')
    case Bin.Bin => exact h.dual _ _
    all_goals rfl
  · rintro (_ | v) (_ | v') (_ | v'')
    case Bin.Bin.Bin => exact h.trans _ _ _
    all_goals intro h1 h2; first | rfl | (injection h1 with h; (try cases h); done) | (injection h2 with h; (try cases h); done)
  · rintro (_ | v) (_ | v') (_ | v'')
    case Bin.Bin.Bin => exact h.eq_left _ _ _
    all_goals intro h1; first | rfl | (injection h1 with h; (try cases h); done)

/-- **C60 (sums).** -/
theorem C60_sum (h : CmpLaws (PEq.peq (A := T)) POrd.pcmp) : CmpLaws (PEq.peq (A := Sum T)) POrd.pcmp := h.comap Sum.sum

/-- **C60 (weighted sums).** -/
theorem C60_weighted_sum (h : CmpLaws (PEq.peq (A := T)) POrd.pcmp) : CmpLaws (PEq.peq (A := WeightedSum T)) POrd.pcmp :=
  (h.comap WeightedSum.sumw).lex (h.comap WeightedSum.sumw2)

variable {C W : Type} [PEq C] [POrd C] [PEq W] [POrd W]

/-- regrouping of a conjunction -/
theorem CmpLaws.assoc {S : Type} {e1 e2 : S → S → Bool} {c : S → S → Option Ordering} (h : CmpLaws e1 c) (he : ∀ a b, e1 a b = e2 a b) : CmpLaws e2 c := by
  have : e1 = e2 := by funext a b; exact he a b
  rw [← this]; exact h

/-- **C60 (means).** -/
theorem C60_mean {O : Type} (h : CmpLaws (PEq.peq (A := T)) POrd.pcmp) (hc : CmpLaws (PEq.peq (A := C)) POrd.pcmp) :
    CmpLaws (PEq.peq (A := Mean T O C)) POrd.pcmp :=
  ((h.comap (Mean.sumw (T := T) (O := O) (C := C))).lex ((h.comap Mean.sumw2).lex (hc.comap Mean.count))).assoc fun a b => by
    show _ = (_ && _ && _); rw [Bool.and_assoc]

/-- **C60 (weighted means).** -/
theorem C60_weighted_mean {O : Type} (h : CmpLaws (PEq.peq (A := T)) POrd.pcmp) (hw : CmpLaws (PEq.peq (A := W)) POrd.pcmp)
    (hc : CmpLaws (PEq.peq (A := C)) POrd.pcmp) : CmpLaws (PEq.peq (A := WeightedMean T W O C)) POrd.pcmp :=
  ((h.comap (WeightedMean.sumwt (T := T) (W := W) (O := O) (C := C))).lex ((h.comap WeightedMean.sumwt2).lex ((hw.comap WeightedMean.sumw).lex
    ((hw.comap WeightedMean.sumw2).lex (hc.comap WeightedMean.count))))).assoc fun a b => by
    show _ = (_ && _ && _ && _ && _); simp only [Bool.and_assoc]

/-- **C60 (items of iteration).** They compare by bin number first. -/
theorem C60_item {B V : Type} [PEq B] [POrd B] [PEq V] [POrd V] (hb : CmpLaws (PEq.peq (A := B)) POrd.pcmp) (hv : CmpLaws (PEq.peq (A := V)) POrd.pcmp) :
    CmpLaws (PEq.peq (A := Item B V)) POrd.pcmp ∧ ∀ a b : Item B V, a.index < b.index → POrd.lt a b = true := by
  refine ⟨((totalLaws_nat.toCmpLaws.comap (Item.index (B := B) (V := V))).lex ((hb.comap Item.bin).lex (hv.comap Item.value))).assoc fun a b => by
    show _ = (_ && _ && _); rw [Bool.and_assoc], ?_⟩
  intro a b hlt
  have : natPOrd.pcmp a.index b.index = some .lt := by
    show some (compare _ _) = _; rw [Nat.compare_eq_lt.2 hlt]
  show (thenCmp _ _ == _) = true
  rw [this]; rfl

/-- **C60 (dense histograms).** They compare by axes first, then by the bin values from bin 0 on. -/
theorem C60_vec_histogram {A V : Type} [PEq A] [POrd A] [PEq V] [POrd V] (ha : CmpLaws (PEq.peq (A := A)) POrd.pcmp)
    (hv : CmpLaws (PEq.peq (A := V)) POrd.pcmp) : CmpLaws (PEq.peq (A := VecHistogram A V)) POrd.pcmp :=
  ((ha.comap (VecHistogram.axes (A := A) (V := V))).lex ((cmpLaws_vec hv).comap VecHistogram.values)).assoc fun a b => by
    show _ = (_ && _)
    congr 1
    have : ∀ x y : List V, vecEq x y = (x.length == y.length && (x.zip y).all fun vw => PEq.peq vw.1 vw.2) := by
      intro x
      induction x with
      | nil => intro y; cases y <;> simp [vecEq]
      | cons v x ih =>
        intro y
        cases y with
        | nil => simp [vecEq]
        | cons w y =>
          simp only [vecEq, ih, List.length_cons, List.zip_cons_cons, List.all_cons]
          have : ((x.length + 1) == (y.length + 1)) = (x.length == y.length) := by
            rw [Bool.eq_iff_iff]; simp
          rw [this]
          cases PEq.peq v w <;> cases (x.length == y.length) <;> rfl
    exact this a.values b.values
end

section
variable {T : Type} [POrd T] [LawfulPOrd T]

/-- **C60 (uniform axes).** -/
theorem C60_uniform : CmpLaws (PEq.peq (A := Uniform T)) POrd.pcmp :=
  ((totalLaws_nat.toCmpLaws.comap (Uniform.num (T := T))).lex ((cmpLaws_num.comap Uniform.low).lex
    ((cmpLaws_num.comap Uniform.high).lex (cmpLaws_num.comap Uniform.step)))).assoc fun a b => by
    show _ = (_ && _ && _ && _); simp only [Bool.and_assoc]
theorem C60_uniform_noflow : CmpLaws (PEq.peq (A := UniformNoFlow T)) POrd.pcmp := C60_uniform.comap UniformNoFlow.axis
theorem C60_uniform_cyclic : CmpLaws (PEq.peq (A := UniformCyclic T)) POrd.pcmp := C60_uniform_noflow.comap UniformCyclic.axis
/-- **C60 (variable axes).** -/
theorem C60_variable : CmpLaws (PEq.peq (A := Variable T)) POrd.pcmp := by
  have h := @cmpLaws_vec T (numPEq T) _ cmpLaws_num
  exact h.comap Variable.binEdges
theorem C60_variable_noflow : CmpLaws (PEq.peq (A := VariableNoFlow T)) POrd.pcmp := C60_variable.comap VariableNoFlow.axis
theorem C60_variable_cyclic : CmpLaws (PEq.peq (A := VariableCyclic T)) POrd.pcmp := C60_variable_noflow.comap VariableCyclic.axis
end

section
variable [Cfg]
/-- **C60 (one axis in a tuple).** -/
theorem C60_tuple1 {X : Type} [PEq X] [POrd X] (h : CmpLaws (PEq.peq (A := X)) POrd.pcmp) : CmpLaws (PEq.peq (A := AxesTuple1 X)) POrd.pcmp :=
  (h.comap AxesTuple1.axis).lex (totalLaws_shape.toCmpLaws.comap AxesTuple1.shape)

theorem C60_tuple_nil : CmpLaws (T := Tup []) TupPEq.peq TupPOrd.pcmp :=
  ⟨fun _ _ => by simp [TupPEq.peq, TupPOrd.pcmp], fun _ _ => rfl, fun _ _ _ h _ => h, fun _ _ _ _ => rfl⟩

theorem C60_tuple_cons {t : AxTy} {ts : List AxTy} [PEq t.A] [POrd t.A] [TupPEq ts] [TupPOrd ts] (h : CmpLaws (PEq.peq (A := t.A)) POrd.pcmp)
    (hs : CmpLaws (T := Tup ts) TupPEq.peq TupPOrd.pcmp) : CmpLaws (T := Tup (t :: ts)) TupPEq.peq TupPOrd.pcmp :=
  (h.comap (fun a : Tup (t :: ts) => a.1)).lex (hs.comap (fun a : Tup (t :: ts) => a.2))

/-- **C60 (several axes).** -/
theorem C60_tuple {t₀ t₁ : AxTy} {ts : List AxTy} [TupPEq (t₀ :: t₁ :: ts)] [TupPOrd (t₀ :: t₁ :: ts)]
    (h : CmpLaws (T := Tup (t₀ :: t₁ :: ts)) TupPEq.peq TupPOrd.pcmp) : CmpLaws (PEq.peq (A := AxesTuple t₀ t₁ ts)) POrd.pcmp :=
  (h.comap AxesTuple.axes).lex (totalLaws_shape.toCmpLaws.comap AxesTuple.shape)
end

/-! ## C60: the bins of an axis in the derived order -/

section
variable {T : Type} [cfg : Cfg] [POrd T] [LawfulPOrd T] [StdLib]

/-- **C60 (bins of a variable axis).** The bins between two edges increase with the bin number. The underflow bin is below everything else; the overflow bin,
although the last one, compares below every bin between two edges. -/
theorem C60_variable_bins_order {edges : List T} {a : Variable T} (hnew : Variable.new edges = .ok (.ok a))
    (hd : edges.Pairwise (fun x y => POrd.eq x y = false)) (hmem : edges.length + 1 < usizeSize) :
    (∀ i j bi bj, 1 ≤ i → i < j → j < edges.length → a.bin i = .ok (some bi) → a.bin j = .ok (some bj) → POrd.lt bi bj = true) ∧
    (∀ j bj b₀, 1 ≤ j → j ≤ edges.length → a.bin 0 = .ok (some b₀) → a.bin j = .ok (some bj) → POrd.lt b₀ bj = true) ∧
    (∀ i bi b, 1 ≤ i → i < edges.length → a.bin i = .ok (some bi) → a.bin edges.length = .ok (some b) → POrd.lt b bi = true) := by
  obtain ⟨hn, ⟨e0, he0, _, hb0⟩, ⟨e1, he1, _, hb1⟩, hin, hout⟩ := C13_variable_bins hnew hmem
  have hlen : a.binEdges.length = edges.length := by
    obtain ⟨_, _, p1, _⟩ := Variable.new_ok hnew
    exact p1.length_eq
  refine ⟨?_, ?_, ?_⟩
  · intro i j bi bj hi hij hj h1 h2
    obtain ⟨s, e, hs, he, hb⟩ := hin (i - 1) (by omega)
    obtain ⟨s', e', hs', he', hb'⟩ := hin (j - 1) (by omega)
    rw [show i - 1 + 1 = i by omega, h1] at hb
    rw [show j - 1 + 1 = j by omega, h2] at hb'
    injection hb with hb; injection hb with hb; subst hb
    injection hb' with hb; injection hb with hb; subst hb
    have hlt := strict_of_distinct hnew hd (i := i - 1) (j := j - 1) (by omega) (by omega)
    rw [List.getElem?_eq_getElem (by omega)] at hs hs'
    injection hs with hs; injection hs' with hs'
    rw [hs, hs'] at hlt
    have : POrd.pcmp s s' = some .lt := by simpa [POrd.lt] using hlt
    show (thenCmp _ _ == _) = true
    rw [this]; rfl
  · intro j bj b₀ hj hj' h0 h1
    rw [hb0] at h0
    injection h0 with h0; injection h0 with h0; subst h0
    rcases Nat.lt_or_ge j edges.length with hlt | hge
    · obtain ⟨s, e, _, _, hb⟩ := hin (j - 1) (by omega)
      rw [show j - 1 + 1 = j by omega, h1] at hb
      injection hb with hb; injection hb with hb; subst hb; rfl
    · have : j = edges.length := by omega
      subst this
      rw [hb1] at h1
      injection h1 with hb; injection hb with hb; subst hb; rfl
  · intro i bi b hi hi' h1 h2
    rw [hb1] at h2
    injection h2 with h2; injection h2 with h2; subst h2
    obtain ⟨s, e, _, _, hb⟩ := hin (i - 1) (by omega)
    rw [show i - 1 + 1 = i by omega, h1] at hb
    injection hb with hb; injection hb with hb; subst hb; rfl
end

section
variable [cfg : Cfg] {τ : IntTy}

/-- **C60 (bins of an integer uniform axis).** As for variable axes, as long as the bins can be computed (C02). -/
theorem C60_uniform_int_bins_order {num : Nat} {low step : MInt τ} {a : Uniform (MInt τ)}
    (hnew : Uniform.withStepSize num low step = .ok (.ok a)) (hfit : (num : ℤ) * (num * step.val) ≤ τ.max)
    (hhi : low.val + num * step.val ≤ τ.max) (hnum : num + 2 < usizeSize) :
    (∀ i j bi bj, 1 ≤ i → i < j → j ≤ num → a.bin i = .ok (some bi) → a.bin j = .ok (some bj) → POrd.lt bi bj = true) ∧
    (∀ j bj b₀, 1 ≤ j → j ≤ num + 1 → a.bin 0 = .ok (some b₀) → a.bin j = .ok (some bj) → POrd.lt b₀ bj = true) ∧
    (∀ i bi b, 1 ≤ i → i ≤ num → a.bin i = .ok (some bi) → a.bin (num + 1) = .ok (some b) → POrd.lt b bi = true) := by
  have hfit' : Cfg.checked = false → (num : ℤ) * step.val ≤ τ.max ∧ low.val + num * step.val ≤ τ.max := by
    intro _
    refine ⟨?_, hhi⟩
    rcases Nat.eq_zero_or_pos num with h | h
    · subst h; simp at hfit ⊢; exact hfit
    · by_cases h0 : 0 ≤ (num : ℤ) * step.val
      · nlinarith
      · have : (0 : ℤ) ≤ τ.max := by
          unfold IntTy.max
          have h1 : (0 : ℤ) < 2 ^ (τ.bits - 1) := by positivity
          have h2 : (0 : ℤ) < 2 ^ τ.bits := by positivity
          split <;> omega
        omega
  obtain ⟨h0, hnmax, hs, _⟩ := Uniform.withStepSize_ok hnew hfit'
  obtain ⟨hn, hb0, ⟨hi, _, hb1⟩, hin, _⟩ := C02_uniform_int_bins_partial hnew hfit' hnum
  have hin' : ∀ i, 1 ≤ i → i ≤ num → ∃ s e : MInt τ, s.val = low.val + ((i - 1 : ℕ) : ℤ) * step.val ∧ a.bin i = .ok (some (.Bin s e)) := by
    intro i h1 h2
    obtain ⟨s, e, hs', _, hb⟩ := hin (i - 1) (by omega) (by
      have : (((i - 1 : ℕ) : ℤ) + 1) ≤ num := by omega
      calc (((i - 1 : ℕ) : ℤ) + 1) * (num * step.val) ≤ num * (num * step.val) := mul_le_mul_of_nonneg_right this (by positivity)
        _ ≤ τ.max := hfit)
    rw [show i - 1 + 1 = i by omega] at hb
    exact ⟨s, e, hs', hb⟩
  refine ⟨?_, ?_, ?_⟩
  · intro i j bi bj hi hij hj h1 h2
    obtain ⟨s, e, hs1, hb⟩ := hin' i hi (by omega)
    obtain ⟨s', e', hs2, hb'⟩ := hin' j (by omega) hj
    rw [h1] at hb
    rw [h2] at hb'
    injection hb with hb; injection hb with hb; subst hb
    injection hb' with hb; injection hb with hb; subst hb
    have : POrd.pcmp s s' = some .lt := by
      rw [MInt.pcmp_eq, hs1, hs2]
      congr 1
      rw [compare_lt_iff_lt]
      have : ((i - 1 : ℕ) : ℤ) < ((j - 1 : ℕ) : ℤ) := by omega
      nlinarith
    show (thenCmp _ _ == _) = true
    rw [this]; rfl
  · intro j bj b₀ hj hj' h0 h1
    rw [hb0] at h0
    injection h0 with h0; injection h0 with h0; subst h0
    rcases Nat.lt_or_ge j (num + 1) with hlt | hge
    · obtain ⟨s, e, _, hb⟩ := hin' j hj (by omega)
      rw [h1] at hb
      injection hb with hb; injection hb with hb; subst hb; rfl
    · have : j = num + 1 := by omega
      subst this
      rw [hb1] at h1
      injection h1 with hb; injection hb with hb; subst hb; rfl
  · intro i bi b hi hi' h1 h2
    rw [hb1] at h2
    injection h2 with h2; injection h2 with h2; subst h2
    obtain ⟨s, e, _, hb⟩ := hin' i hi hi'
    rw [h1] at hb
    injection hb with hb; injection hb with hb; subst hb; rfl
end

section
attribute [local instance] dbg64 stdOld

/-- C60: the order of bins is not the order of bin numbers: on an axis over `[0, 4)` the last bin (overflow) compares below bin 1 -/
example : ∃ a b₁ b₃, Uniform.withStepSize (T := MInt .i32) 2 (.lit 0) (.lit 2) = .ok (.ok a) ∧ a.bin 1 = .ok (some b₁) ∧ a.bin 3 = .ok (some b₃) ∧
    POrd.lt b₃ b₁ = true :=
  ⟨⟨2, .lit 0, .lit 4, .lit 2⟩, .Bin (.lit 0) (.lit 2), .Overflow (.lit 4), by decide, by decide, by decide, by decide⟩

/-- C60: hypotheses of the two theorems above -/
example : Uniform.withStepSize (T := MInt .i8) 3 (.lit (-5)) (.lit 10) = .ok (.ok ⟨3, .lit (-5), .lit 25, .lit 10⟩) ∧
    (3 : ℤ) * (3 * 10) ≤ IntTy.i8.max := by decide
example : Variable.new (T := MInt .i32) [.lit 5, .lit 1, .lit 3] = .ok (.ok ⟨[.lit 1, .lit 3, .lit 5]⟩) ∧
    [MInt.lit (τ := .i32) 5, .lit 1, .lit 3].Pairwise (fun x y => POrd.eq x y = false) := by decide

attribute [local instance] numPEq

/-- C60: the laws apply to a two-dimensional histogram with a float and an integer axis, with weighted sums in the bins -/
example : CmpLaws (PEq.peq (A := VecHistogram (AxesTuple ⟨Variable (Flt .f64), inferInstance⟩ ⟨Uniform (MInt .i32), inferInstance⟩ [])
    (WeightedSum (Flt .f64)))) POrd.pcmp := by
  let _ : PEq (AxTy.A ⟨Variable (Flt .f64), inferInstance⟩) := inferInstanceAs (PEq (Variable (Flt .f64)))
  let _ : PEq (AxTy.A ⟨Uniform (MInt .i32), inferInstance⟩) := inferInstanceAs (PEq (Uniform (MInt .i32)))
  let _ : POrd (AxTy.A ⟨Variable (Flt .f64), inferInstance⟩) := inferInstanceAs (POrd (Variable (Flt .f64)))
  let _ : POrd (AxTy.A ⟨Uniform (MInt .i32), inferInstance⟩) := inferInstanceAs (POrd (Uniform (MInt .i32)))
  exact C60_vec_histogram (C60_tuple (C60_tuple_cons C60_variable (C60_tuple_cons C60_uniform C60_tuple_nil))) (C60_weighted_sum cmpLaws_num)
end
end NdHist
