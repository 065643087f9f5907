import Verif.Props.Scale
import Verif.Props.Fill
import Verif.Props.Merge
import Verif.Props.Axes
import Verif.Model.FloatConv
/-!
# C85: changing the unit of coordinates and weights by a power of two, in histograms
-/
namespace NdHist
variable [cfg : Cfg] {F : FFmt} {k : ℤ}

/-! ## Tuples -/
theorem Tup.numBinsList_same : {ts ts' : List AxTy} → (t : Tup ts) → (t' : Tup ts') → TupSameSize t t' → t'.numBinsList = t.numBinsList
  | [], [], _, _, _ => rfl
  | _ :: _, _ :: _, (a, as), (a', as'), h => by
    show (do let n ← Axis.numBins a'; let ns ← numBinsList as'; return n :: ns) = (do let n ← Axis.numBins a; let ns ← numBinsList as; return n :: ns)
    rw [h.1, numBinsList_same as as' h.2]
  | [], _ :: _, _, _, h => h.elim
  | _ :: _, [], _, _, h => h.elim

theorem Tup.indices_same : {ts ts' : List AxTy} → (t : Tup ts) → (t' : Tup ts') → (c : Coords ts) → (c' : Coords ts') → TupSameIndex t t' c c' → t'.indices c' = t.indices c
  | [], [], _, _, _, _, _ => rfl
  | _ :: _, _ :: _, (a, as), (a', as'), (c, cs), (c', cs'), h => by
    show (do match ← Axis.index a' c' with
      | none => return none
      | some i => match ← indices as' cs' with
        | none => return none
        | some is => return some (i :: is)) = (do match ← Axis.index a c with
      | none => return none
      | some i => match ← indices as cs with
        | none => return none
        | some is => return some (i :: is))
    rw [h.1, indices_same as as' cs cs' h.2]
  | [], _ :: _, _, _, _, _, h => h.elim
  | _ :: _, [], _, _, _, _, h => h.elim

/-- **C85 (tuples).** Tuples of axes with as many bins in each dimension number the bins in the same way. -/
theorem C85_tuple {t₀ t₁ t₀' t₁' : AxTy} {ts ts' : List AxTy} {t : Tup (t₀ :: t₁ :: ts)} {t' : Tup (t₀' :: t₁' :: ts')} (hs : TupSameSize t t') {a : AxesTuple t₀ t₁ ts}
    (ha : AxesTuple.fromTuple t = .ok a) :
    ∃ a', AxesTuple.fromTuple t' = .ok a' ∧ Axis.numBins a' = Axis.numBins a ∧
      ∀ (c : Coords (t₀ :: t₁ :: ts)) (c' : Coords (t₀' :: t₁' :: ts')), TupSameIndex t t' c c' → Axis.index a' c' = Axis.index a c := by
  have hn := Tup.numBinsList_same t t' hs
  unfold AxesTuple.fromTuple at ha ⊢
  rw [hn]
  cases h1 : t.numBinsList with
  | error p => rw [h1] at ha; cases ha
  | ok ns =>
    rw [h1] at ha
    simp only [bind, Except.bind] at ha ⊢
    cases h2 : scanProd 1 ns with
    | error p => rw [h2] at ha; cases ha
    | ok shape =>
      rw [h2] at ha
      cases ha
      refine ⟨_, rfl, ?_, fun c c' hc => ?_⟩
      · show (do match ← t'.numBinsList with | [] => return 1 | n :: ns => let p ← ns.foldlM umul n; umul p 1) = (do match ← t.numBinsList with | [] => return 1 | n :: ns => let p ← ns.foldlM umul n; umul p 1)
        rw [hn]
      · show AxesTuple.index _ c' = AxesTuple.index _ c
        unfold AxesTuple.index
        rw [Tup.indices_same t t' c c' hc]

/-! ## Histograms -/
section
variable {A A' V V' : Type} [Axis A] [Axis A'] {axes : A} {axes' : A'} {n : ℕ}

/-- two calls into the same bin that keep the relation -/
def SameCall (R : V → V' → Prop) (axes : A) (axes' : A') (call : Call V (Axis.Coordinate A)) (call' : Call V' (Axis.Coordinate A')) : Prop :=
  Axis.index axes' call'.coord = Axis.index axes call.coord ∧ ∀ v v', R v v' → R (call.on v).1 (call'.on v').1

theorem callsIn_same {R : V → V' → Prop} {calls : List (Call V (Axis.Coordinate A))} {calls' : List (Call V' (Axis.Coordinate A'))}
    (h : List.Forall₂ (SameCall R axes axes') calls calls') (i : ℕ) : List.Forall₂ (SameCall R axes axes') (callsIn axes i calls) (callsIn axes' i calls') := by
  induction h with
  | nil => exact .nil
  | cons h1 _ ih =>
    unfold callsIn at ih ⊢
    simp only [List.filter_cons]
    rw [h1.1]
    split
    · exact .cons h1 ih
    · exact ih

theorem filledWith_same {R : V → V' → Prop} {calls : List (Call V (Axis.Coordinate A))} {calls' : List (Call V' (Axis.Coordinate A'))}
    (h : List.Forall₂ (SameCall R axes axes') calls calls') : ∀ v v', R v v' → R (filledWith calls v) (filledWith calls' v') := by
  induction h with
  | nil => intro v v' hv; exact hv
  | cons h1 _ ih => intro v v' hv; exact ih _ _ (h1.2 v v' hv)

theorem dense_same [RDefault V] [RDefault V'] {R : V → V' → Prop} (h0 : R RDefault.dflt RDefault.dflt) (hl : LawfulAxis axes n) (hl' : LawfulAxis axes' n) {h : VecHistogram A V} {h' : VecHistogram A' V'}
    (hnew : VecHistogram.new axes = .ok h) (hnew' : VecHistogram.new axes' = .ok h') {calls : List (Call V (Axis.Coordinate A))} {calls' : List (Call V' (Axis.Coordinate A'))}
    (hc : List.Forall₂ (SameCall R axes axes') calls calls') (i : ℕ) : Option.Rel R ((h.callAllCaught calls).valueAtIndex i) ((h'.callAllCaught calls').valueAtIndex i) := by
  rw [(C28_dense hl hnew calls).2.2, (C28_dense hl' hnew' calls').2.2]
  split
  · exact .some (filledWith_same (callsIn_same hc i) _ _ h0)
  · exact .none

theorem sparse_same [RDefault V] [RDefault V'] {R : V → V' → Prop} (h0 : R RDefault.dflt RDefault.dflt) {calls : List (Call V (Axis.Coordinate A))} {calls' : List (Call V' (Axis.Coordinate A'))}
    (hc : List.Forall₂ (SameCall R axes axes') calls calls') (i : ℕ) :
    Option.Rel R (((HashHistogram.new axes).callAllCaught calls).valueAtIndex i) (((HashHistogram.new axes').callAllCaught calls').valueAtIndex i) := by
  rw [C28_sparse, C28_sparse]
  have hs := callsIn_same hc i
  revert hs
  generalize callsIn axes i calls = l
  generalize callsIn axes' i calls' = l'
  intro hs
  cases hs with
  | nil => rw [if_pos rfl, if_pos rfl]; exact .none
  | cons h1 h2 =>
    rw [if_neg (by simp), if_neg (by simp)]
    exact .some (filledWith_same (.cons h1 h2) _ _ h0)

/-! ### Values -/
theorem Flt.ScaledFin.add {x x' w w' : Flt F} (hx : x.ScaledFin k x') (hw : w.ScaledFin k w') : (Flt.add x w).ScaledFin k (Flt.add x' w') := by
  intro h1 h2
  obtain ⟨a, b⟩ := Flt.isFin_of_add h1
  obtain ⟨a', b'⟩ := Flt.isFin_of_add h2
  exact (hx a a').add (hw b b') h1 h2

theorem Flt.Scaled.sf {x x' : Flt F} (h : x.Scaled k x') : x.ScaledFin k x' := fun _ _ => h

theorem Flt.Scaled.sq {w w' : Flt F} (hw : w.Scaled k w') (hf : SquareFits k w) : (Flt.mul w w).ScaledFin (2 * k) (Flt.mul w' w') := by
  have h := hw.mul hw (by
    rcases hf with h | ⟨h1, h2⟩
    · left; rw [h]; simp
    · right; rw [hw.val_eq]; exact ⟨by rw [abs_mul_self]; nlinarith, by rw [abs_mul_self]; nlinarith⟩)
  rwa [← two_mul] at h

theorem Flt.Scaled.prod {x w w' : Flt F} (hw : w.Scaled k w') (hf : ProductFits k x w) : (Flt.mul x w).ScaledFin k (Flt.mul x w') := by
  have h := (Flt.Scaled.refl_zero x).mul hw (by
    rcases hf with h | ⟨h1, h2⟩
    · left; exact h
    · right; rw [hw.val_eq]; exact ⟨h1, by rw [← mul_assoc, abs_mul, abs_of_pos (pow2_pos k)]; exact h2⟩)
  rwa [zero_add] at h

theorem forall₂_map_calls {C C' : Type} {P : C × Flt F → C' × Flt F → Prop} {Q : Call V C → Call V' C' → Prop} {f : C × Flt F → Call V C} {f' : C' × Flt F → Call V' C'} {l : List (C × Flt F)} {l' : List (C' × Flt F)}
    (h : List.Forall₂ P l l') (hq : ∀ x x', P x x' → Q (f x) (f' x')) : List.Forall₂ Q (l.map f) (l'.map f') := by
  induction h with
  | nil => exact .nil
  | cons h1 _ ih => exact .cons (hq _ _ h1) ih

/-- **C85 (coordinates).** If each coordinate has the same bin number on both axes, both histograms have the same contents, whatever the bin values. -/
theorem C85_dense [RDefault V] (hl : LawfulAxis axes n) (hl' : LawfulAxis axes' n) {h : VecHistogram A V} {h' : VecHistogram A' V} (hnew : VecHistogram.new axes = .ok h) (hnew' : VecHistogram.new axes' = .ok h')
    {calls : List (Call V (Axis.Coordinate A))} {calls' : List (Call V (Axis.Coordinate A'))}
    (hc : List.Forall₂ (fun call call' => Axis.index axes' call'.coord = Axis.index axes call.coord ∧ call'.on = call.on) calls calls') (i : ℕ) :
    (h'.callAllCaught calls').valueAtIndex i = (h.callAllCaught calls).valueAtIndex i := by
  have := dense_same (R := Eq) rfl hl hl' hnew hnew' (hc.imp fun _ _ h => ⟨h.1, by rintro v _ rfl; rw [h.2]⟩) i
  generalize (h.callAllCaught calls).valueAtIndex i = x at this
  generalize (h'.callAllCaught calls').valueAtIndex i = y at this
  cases this with
  | none => rfl
  | some h => rw [h]

theorem C85_sparse [RDefault V] {calls : List (Call V (Axis.Coordinate A))} {calls' : List (Call V (Axis.Coordinate A'))}
    (hc : List.Forall₂ (fun call call' => Axis.index axes' call'.coord = Axis.index axes call.coord ∧ call'.on = call.on) calls calls') (i : ℕ) :
    ((HashHistogram.new axes').callAllCaught calls').valueAtIndex i = ((HashHistogram.new axes).callAllCaught calls).valueAtIndex i := by
  have := sparse_same (R := Eq) rfl (hc.imp fun _ _ h => ⟨h.1, by rintro v _ rfl; rw [h.2]⟩) i
  generalize ((HashHistogram.new axes).callAllCaught calls).valueAtIndex i = x at this
  generalize ((HashHistogram.new axes').callAllCaught calls').valueAtIndex i = y at this
  cases this with
  | none => rfl
  | some h => rw [h]

theorem sameFill_num {f : Axis.Coordinate A × Flt F} {f' : Axis.Coordinate A' × Flt F} (h : SameFill k axes axes' f f') :
    SameCall (V := Flt F) (V' := Flt F) (Flt.ScaledFin k) axes axes' (.fillWith f.1 f.2) (.fillWith f'.1 f'.2) :=
  ⟨h.1, fun v v' hv => hv.add h.2.sf⟩

theorem zero_sf : (RDefault.dflt : Flt F).ScaledFin k RDefault.dflt := (Flt.zero_scaled false).sf

/-- **C85 (weights).** Weights in another unit: the bins are in the ratio of the units, where they are finite. -/
theorem C85_weights (hl : LawfulAxis axes n) (hl' : LawfulAxis axes' n) {h : VecHistogram A (Flt F)} {h' : VecHistogram A' (Flt F)} (hnew : VecHistogram.new axes = .ok h) (hnew' : VecHistogram.new axes' = .ok h')
    {fills : List (Axis.Coordinate A × Flt F)} {fills' : List (Axis.Coordinate A' × Flt F)} (hf : List.Forall₂ (SameFill k axes axes') fills fills') (i : ℕ) :
    Option.Rel (Flt.ScaledFin k) ((h.callAllCaught (fills.map fun f => .fillWith f.1 f.2)).valueAtIndex i) ((h'.callAllCaught (fills'.map fun f => .fillWith f.1 f.2)).valueAtIndex i) :=
  dense_same zero_sf hl hl' hnew hnew' (forall₂_map_calls hf fun _ _ h => sameFill_num h) i

theorem C85_weights_sparse {fills : List (Axis.Coordinate A × Flt F)} {fills' : List (Axis.Coordinate A' × Flt F)} (hf : List.Forall₂ (SameFill k axes axes') fills fills') (i : ℕ) :
    Option.Rel (Flt.ScaledFin k) (((HashHistogram.new axes : HashHistogram A (Flt F)).callAllCaught (fills.map fun f => .fillWith f.1 f.2)).valueAtIndex i)
      (((HashHistogram.new axes' : HashHistogram A' (Flt F)).callAllCaught (fills'.map fun f => .fillWith f.1 f.2)).valueAtIndex i) :=
  sparse_same zero_sf (forall₂_map_calls hf fun _ _ h => sameFill_num h) i

/-- **C85 (weighted sums).** The sums are in the ratio `2^k`, the variances in the ratio `2^(2k)`. -/
theorem C85_weighted_sum (hl : LawfulAxis axes n) (hl' : LawfulAxis axes' n) {h : VecHistogram A (WeightedSum (Flt F))} {h' : VecHistogram A' (WeightedSum (Flt F))} (hnew : VecHistogram.new axes = .ok h)
    (hnew' : VecHistogram.new axes' = .ok h') {fills : List (Axis.Coordinate A × Flt F)} {fills' : List (Axis.Coordinate A' × Flt F)}
    (hf : List.Forall₂ (fun f f' => SameFill k axes axes' f f' ∧ SquareFits k f.2) fills fills') (i : ℕ) :
    Option.Rel (fun v v' => v.get.ScaledFin k v'.get ∧ v.variance.ScaledFin (2 * k) v'.variance)
      ((h.callAllCaught (fills.map fun f => .fillWith f.1 f.2)).valueAtIndex i) ((h'.callAllCaught (fills'.map fun f => .fillWith f.1 f.2)).valueAtIndex i) := by
  refine dense_same ⟨zero_sf, zero_sf⟩ hl hl' hnew hnew' (forall₂_map_calls hf ?_) i
  intro f f' h
  exact ⟨h.1.1, fun v v' hv => ⟨hv.1.add h.1.2.sf, hv.2.add (h.1.2.sq h.2)⟩⟩

theorem C85_weighted_sum_sparse {fills : List (Axis.Coordinate A × Flt F)} {fills' : List (Axis.Coordinate A' × Flt F)}
    (hf : List.Forall₂ (fun f f' => SameFill k axes axes' f f' ∧ SquareFits k f.2) fills fills') (i : ℕ) :
    Option.Rel (fun v v' => v.get.ScaledFin k v'.get ∧ v.variance.ScaledFin (2 * k) v'.variance)
      (((HashHistogram.new axes : HashHistogram A (WeightedSum (Flt F))).callAllCaught (fills.map fun f => .fillWith f.1 f.2)).valueAtIndex i)
      (((HashHistogram.new axes' : HashHistogram A' (WeightedSum (Flt F))).callAllCaught (fills'.map fun f => .fillWith f.1 f.2)).valueAtIndex i) := by
  refine sparse_same ⟨zero_sf, zero_sf⟩ (forall₂_map_calls hf ?_) i
  intro f f' h
  exact ⟨h.1.1, fun v v' hv => ⟨hv.1.add h.1.2.sf, hv.2.add (h.1.2.sq h.2)⟩⟩

theorem Option.Rel.weaken {α β : Type} {R S : α → β → Prop} {x : Option α} {y : Option β} (h : Option.Rel R x y) (hi : ∀ a b, R a b → S a b) : Option.Rel S x y := by
  cases h with
  | none => exact .none
  | some h => exact .some (hi _ _ h)

/-- a finite non-zero quotient has finite parts -/
theorem Flt.of_div_ne {x y : Flt F} (h : (Flt.div x y).val ≠ 0) : x.isFin ∧ y.isFin ∧ y.val ≠ 0 := by
  cases x with
  | nan => exact absurd rfl h
  | inf s => cases y <;> exact absurd rfl h
  | fin s a ha =>
    cases y with
    | nan => exact absurd rfl h
    | inf t => exact absurd (by simp [Flt.div, Flt.zero, Flt.val, Flt.sval]) h
    | fin t b hb =>
      refine ⟨trivial, trivial, fun h0 => h ?_⟩
      have : b = 0 := by cases t <;> simpa [Flt.val, Flt.sval] using h0
      subst this
      simp only [Flt.div, if_true]
      split <;> rfl

theorem Flt.isFin_of_val {x : Flt F} (h : x.val ≠ 0) : x.isFin := by
  cases x <;> first | trivial | exact absurd rfl h

/-- a quotient that is rounded to more than the smallest normal number is normal -/
theorem Flt.div_normal {x y : Flt F} (h : pow2 F.emin < |(Flt.div x y).val|) : x.isFin ∧ y.isFin ∧ y.val ≠ 0 ∧ pow2 F.emin ≤ |x.val / y.val| := by
  have hp := pow2_pos F.emin
  have h0 : (Flt.div x y).val ≠ 0 := by intro h0; rw [h0, abs_zero] at h; linarith
  obtain ⟨a, b, c⟩ := Flt.of_div_ne h0
  refine ⟨a, b, c, ?_⟩
  rw [(Flt.div_rounds a b c).of_isFin (Flt.isFin_of_val h0)] at h
  by_contra hc
  have hrep : F.RepU |pow2 F.emin| := by
    rw [abs_of_pos hp]
    exact ⟨1, F.emin, by ring, Nat.one_lt_two_pow (by have := F.p_ge; omega), by unfold FFmt.qmin; have := F.p_ge; omega⟩
  rw [not_le, abs_lt] at hc
  have h1 := F.rs_mono hc.1.le
  have h2 := F.rs_mono hc.2.le
  have hneg : F.RepU |-pow2 F.emin| := by rw [abs_neg]; exact hrep
  rw [F.rs_of_rep hrep] at h2
  rw [F.rs_of_rep hneg] at h1
  exact absurd (abs_le.mpr ⟨h1, h2⟩) (not_le.mpr h)

section
variable {C : Type} [RNum C] [RFrom C (Flt F)]

/-- how two means filled with samples in different units are related -/
structure MeanRel (k : ℤ) (v v' : Mean (Flt F) (Flt F) C) : Prop where
  sum : v.sumw.ScaledFin k v'.sumw
  count : v'.count = v.count

theorem MeanRel.fill {v v' : Mean (Flt F) (Flt F) C} (h : MeanRel k v v') {x x' : Flt F} (hx : x.Scaled k x') :
    MeanRel k (FillWith.fillWith x v).1 (FillWith.fillWith x' v').1 := by
  have e : ∀ (v : Mean (Flt F) (Flt F) C) (x : Flt F), (FillWith.fillWith x v).1 = ⟨Flt.add v.sumw x, Flt.add v.sumw2 (Flt.mul x x), (addAssign (RNum.one : C) v.count).1⟩ := fun _ _ => rfl
  rw [e, e]
  exact ⟨h.sum.add hx.sf, by show (addAssign (RNum.one : C) v'.count).1 = _; rw [h.count]⟩

/-- **C85 (means).** Samples in another unit: the number of samples is the same and the mean is in the ratio of the units, unless it underflows or overflows. -/
theorem C85_mean (hl : LawfulAxis axes n) (hl' : LawfulAxis axes' n) {h : VecHistogram A (Mean (Flt F) (Flt F) C)} {h' : VecHistogram A' (Mean (Flt F) (Flt F) C)}
    (hnew : VecHistogram.new axes = .ok h) (hnew' : VecHistogram.new axes' = .ok h') {fills : List (Axis.Coordinate A × Flt F)} {fills' : List (Axis.Coordinate A' × Flt F)}
    (hf : List.Forall₂ (SameFill k axes axes') fills fills') (i : ℕ) :
    Option.Rel (fun v v' => v'.numSamples = v.numSamples ∧ ∀ m m', v.get = .ok m → v'.get = .ok m' → pow2 F.emin < |m.val| → pow2 F.emin < |m'.val| → m.Scaled k m')
      ((h.callAllCaught (fills.map fun f => .fillWith f.1 f.2)).valueAtIndex i) ((h'.callAllCaught (fills'.map fun f => .fillWith f.1 f.2)).valueAtIndex i) := by
  have := dense_same (R := MeanRel k) ⟨zero_sf, rfl⟩ hl hl' hnew hnew' (forall₂_map_calls hf fun f f' (h : SameFill k axes axes' f f') =>
    (⟨h.1, fun v v' hv => hv.fill h.2⟩ : SameCall (V := Mean (Flt F) (Flt F) C) (V' := Mean (Flt F) (Flt F) C) (MeanRel k) axes axes' (.fillWith f.1 f.2) (.fillWith f'.1 f'.2))) i
  refine Option.Rel.weaken this ?_
  intro v v' hv
  refine ⟨hv.count, fun m m' e e' hm hm' => ?_⟩
  have e : Flt.div v.sumw (RFrom.conv v.count) = m := by injection e
  have e' : Flt.div v'.sumw (RFrom.conv v'.count) = m' := by injection e'
  subst e; subst e'
  rw [hv.count] at hm' ⊢
  obtain ⟨a, b, c, d⟩ := Flt.div_normal hm
  obtain ⟨a', -, -, d'⟩ := Flt.div_normal hm'
  have hp := pow2_pos F.emin
  have := (hv.sum a a').div (Flt.Scaled.refl_zero (RFrom.conv v.count)) a b c (.inr ⟨d, d'⟩) (Flt.isFin_of_val fun h0 => by rw [h0, abs_zero] at hm; linarith)
    (Flt.isFin_of_val fun h0 => by rw [h0, abs_zero] at hm'; linarith)
  rwa [sub_zero] at this

/-- how two weighted means filled with weights in different units are related -/
structure WMeanRel (k : ℤ) (v v' : WeightedMean (Flt F) (Flt F) (Flt F) C) : Prop where
  sumwt : v.sumwt.ScaledFin k v'.sumwt
  sumw : v.sumw.ScaledFin k v'.sumw
  count : v'.count = v.count

theorem WMeanRel.fill {v v' : WeightedMean (Flt F) (Flt F) (Flt F) C} (h : WMeanRel k v v') {x w w' : Flt F} (hw : w.Scaled k w') (hf : ProductFits k x w) :
    WMeanRel k (FillWithWeighted.fillWithWeighted x w v).1 (FillWithWeighted.fillWithWeighted x w' v').1 := by
  have e : ∀ (v : WeightedMean (Flt F) (Flt F) (Flt F) C) (w : Flt F), (FillWithWeighted.fillWithWeighted x w v).1 =
    ⟨Flt.add v.sumwt (Flt.mul x w), Flt.add v.sumwt2 (Flt.mul (Flt.mul x x) w), Flt.add v.sumw w, Flt.add v.sumw2 (Flt.mul w w), (addAssign (RNum.one : C) v.count).1⟩ := fun _ _ => rfl
  rw [e, e]
  exact ⟨h.sumwt.add (hw.prod hf), h.sumw.add hw.sf, by show (addAssign (RNum.one : C) v'.count).1 = _; rw [h.count]⟩

/-- **C85 (weighted means).** Multiplying all weights by a power of two does not change a weighted mean at all. -/
theorem C85_weighted_mean (hl : LawfulAxis axes n) (hl' : LawfulAxis axes' n) {h : VecHistogram A (WeightedMean (Flt F) (Flt F) (Flt F) C)} {h' : VecHistogram A' (WeightedMean (Flt F) (Flt F) (Flt F) C)}
    (hnew : VecHistogram.new axes = .ok h) (hnew' : VecHistogram.new axes' = .ok h') {fills : List (Axis.Coordinate A × Flt F × Flt F)} {fills' : List (Axis.Coordinate A' × Flt F × Flt F)}
    (hf : List.Forall₂ (fun f f' => Axis.index axes' f'.1 = Axis.index axes f.1 ∧ f'.2.1 = f.2.1 ∧ f.2.2.Scaled k f'.2.2 ∧ ProductFits k f.2.1 f.2.2) fills fills') (i : ℕ) :
    Option.Rel (fun v v' => v'.numSamples = v.numSamples ∧ ∀ m m', v.get = .ok m → v'.get = .ok m' → m.val ≠ 0 → m'.val ≠ 0 → m' = m)
      ((h.callAllCaught (fills.map fun f => .fillWithWeighted f.1 f.2.1 f.2.2)).valueAtIndex i) ((h'.callAllCaught (fills'.map fun f => .fillWithWeighted f.1 f.2.1 f.2.2)).valueAtIndex i) := by
  have hc : List.Forall₂ (SameCall (V := WeightedMean (Flt F) (Flt F) (Flt F) C) (V' := WeightedMean (Flt F) (Flt F) (Flt F) C) (WMeanRel k) axes axes') (fills.map fun f => .fillWithWeighted f.1 f.2.1 f.2.2) (fills'.map fun f => .fillWithWeighted f.1 f.2.1 f.2.2) := by
    clear hnew hnew'
    induction hf with
    | nil => exact .nil
    | cons h1 _ ih =>
      obtain ⟨g1, g2, g3, g4⟩ := h1
      refine .cons ⟨g1, fun v v' hv => ?_⟩ ih
      simp only [Call.on]
      rw [g2]
      exact hv.fill g3 g4
  refine Option.Rel.weaken (dense_same (R := WMeanRel k) ⟨zero_sf, zero_sf, rfl⟩ hl hl' hnew hnew' hc i) ?_
  intro v v' hv
  refine ⟨hv.count, fun m m' e e' hm hm' => ?_⟩
  have e : Flt.div v.sumwt v.sumw = m := by injection e
  have e' : Flt.div v'.sumwt v'.sumw = m' := by injection e'
  subst e; subst e'
  obtain ⟨a, b, -⟩ := Flt.of_div_ne hm
  obtain ⟨a', b', -⟩ := Flt.of_div_ne hm'
  exact (hv.sumwt a a').div_same (hv.sumw b b')
end

theorem Flt.mul_pow2 {x v c : Flt F} (h : x.Scaled k v) (hx : x.isFin) (hc : c.isFin) (hcv : c.val = pow2 k) : Flt.mul x c = v := by
  have hv := h.isFin_iff.mp hx
  obtain ⟨f, e⟩ := (Flt.mul_rounds hx hc).fin_of (by rw [hcv, ← h.val_eq]; exact Flt.abs_val_le v)
  rw [hcv, ← h.val_eq, Flt.rs_val] at e
  refine Flt.Scaled.eq_zero ((Flt.scaled_iff f hv).mpr ⟨?_, by rw [e, pow2_zero, mul_one]⟩)
  rw [h.sgn_eq]
  cases x with
  | nan => exact hx.elim
  | inf => exact hx.elim
  | fin s a ha =>
    cases c with
    | nan => exact hc.elim
    | inf => exact hc.elim
    | fin t b hb =>
      have ht : t = false := by
        cases t
        · rfl
        · have hp := pow2_pos k
          rw [← hcv] at hp
          simp only [Flt.val, Flt.sval, if_true] at hp
          linarith [hb.nonneg]
      subst ht
      have : (Flt.mul (.fin s a ha) (.fin false b hb) : Flt F).sgn = (s ^^ false) := Flt.sgn_round (h := mul_nonneg ha.nonneg hb.nonneg) f
      rw [this]; cases s <;> rfl

/-- **C85 (scaling afterwards).** Multiplying a histogram by `2^k` gives the histogram filled with `2^k` times the weights, in every bin in which neither overflows. -/
theorem C85_scalar (hl : LawfulAxis axes n) {h : VecHistogram A (Flt F)} (hnew : VecHistogram.new axes = .ok h)
    {fills fills' : List (Axis.Coordinate A × Flt F)} (hf : List.Forall₂ (fun f f' => f'.1 = f.1 ∧ f.2.Scaled k f'.2) fills fills') {c : Flt F} (hc : c.isFin) (hcv : c.val = pow2 k) :
    ∃ m, (h.callAllCaught (fills.map fun f => .fillWith f.1 f.2)).opScalar .mul c = .ok m ∧
      ∀ i x v, (h.callAllCaught (fills.map fun f => .fillWith f.1 f.2)).valueAtIndex i = some x → (h.callAllCaught (fills'.map fun f => .fillWith f.1 f.2)).valueAtIndex i = some v → x.isFin → v.isFin →
        m.valueAtIndex i = some v := by
  have hf' : List.Forall₂ (SameFill k axes axes) fills fills' := hf.imp fun f f' h => ⟨by rw [h.1], h.2⟩
  have hw := C85_weights hl hl hnew hnew hf'
  have ok := (C28_dense hl hnew (fills.map fun f => (.fillWith f.1 f.2 : Call (Flt F) (Axis.Coordinate A)))).1
  rcases C36_scalar .mul ok c with ⟨m, e, -, -, hm⟩ | ⟨p, i, v, -, -, hp⟩
  · refine ⟨m, e, fun i x v hx hv fx fv => ?_⟩
    obtain ⟨z, hz, hz'⟩ := hm i x hx
    have hz : Flt.mul x c = z := by injection hz
    have := hw i
    rw [hx, hv] at this
    cases this with
    | some h => rw [hz', ← hz, Flt.mul_pow2 (h fx fv) fx hc hcv]
  · cases hp
end
end NdHist
