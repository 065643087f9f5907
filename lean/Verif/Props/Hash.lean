import Verif.SpecHash
import Verif.Props.Order
import Mathlib.Data.List.Forall2
/-!
# C66: hashing the crate's objects
-/
set_option linter.unusedSectionVars false
namespace NdHist

/-- equal values feed the same data if and only if every hasher gives the same result: take the hasher that only notes whether it has seen exactly `l` -/
theorem stream_eq_of_hashers {T : Type} {hash : T → List HWrite} {a b : T} (h : ∀ H : Hasher, H.of hash a = H.of hash b) : hash a = hash b := by
  have h1 := h ⟨List HWrite, [], fun s w => s ++ [w], fun s => if s = hash a then 1 else 0⟩
  have hf : ∀ (l s : List HWrite), l.foldl (fun s w => s ++ [w]) s = s ++ l := by
    intro l; induction l with
    | nil => simp
    | cons w l ih => intro s; simp [ih]
  simp only [Hasher.of, hf, List.nil_append, if_true] at h1
  by_contra hne
  rw [if_neg fun e => hne e.symm] at h1
  exact absurd h1 (by decide)

namespace HashContract
variable {T S : Type} {eq eq' : T → T → Bool} {hash hash' : T → List HWrite}

theorem of_stream (h : ∀ a b, eq a b = true → hash a = hash b)
    (h' : ∀ a b rest rest', hash a ++ rest = hash b ++ rest' → eq a b = true ∧ rest = rest') : HashContract eq hash :=
  ⟨fun a b e H => by rw [Hasher.of, Hasher.of, h a b e], h'⟩

theorem stream (h : HashContract eq hash) {a b : T} (e : eq a b = true) : hash a = hash b := stream_eq_of_hashers (h.agrees a b e)

theorem comap (h : HashContract eq hash) (f : S → T) : HashContract (fun a b => eq (f a) (f b)) (fun a => hash (f a)) :=
  of_stream (fun _ _ e => h.stream e) (fun a b => h.tells_apart (f a) (f b))

theorem both (h : HashContract eq hash) (h' : HashContract eq' hash') :
    HashContract (fun a b => eq a b && eq' a b) (fun a => hash a ++ hash' a) := by
  refine of_stream (fun a b e => ?_) fun a b r r' e => ?_
  · rw [Bool.and_eq_true] at e
    rw [h.stream e.1, h'.stream e.2]
  · rw [List.append_assoc, List.append_assoc] at e
    obtain ⟨h1, e⟩ := h.tells_apart _ _ _ _ e
    obtain ⟨h2, e⟩ := h'.tells_apart _ _ _ _ e
    exact ⟨by rw [h1, h2]; rfl, e⟩

theorem congr (h : HashContract eq hash) (he : ∀ a b, eq' a b = eq a b) : HashContract eq' hash :=
  of_stream (fun a b e => h.stream (by rw [← he, e])) fun a b r r' e => by rw [he]; exact h.tells_apart _ _ _ _ e
end HashContract

/-- the default `hash_slice` -/
theorem SliceContract.default {T : Type} {eq : T → T → Bool} {hash : T → List HWrite} (h : HashContract eq hash) :
    SliceContract eq fun l => l.flatMap hash := by
  refine ⟨fun l l' e => ?_, fun l => ?_⟩
  · induction e with
    | nil => rfl
    | cons e _ ih => rw [List.flatMap_cons, List.flatMap_cons, h.stream e, ih]
  · induction l with
    | nil => intro l' r r' hl e; cases l' with
      | nil => exact ⟨.nil, e⟩
      | cons _ _ => simp at hl
    | cons a l ih => intro l' r r' hl e; cases l' with
      | nil => simp at hl
      | cons b l' =>
        simp only [List.flatMap_cons, List.append_assoc] at e
        obtain ⟨h1, e⟩ := h.tells_apart _ _ _ _ e
        obtain ⟨h2, e⟩ := ih l' r r' (by simpa using hl) e
        exact ⟨.cons h1 h2, e⟩

theorem vecEq_forall₂ {T : Type} [PEq T] : ∀ l l' : List T, vecEq l l' = true ↔ List.Forall₂ (fun a b => PEq.peq a b = true) l l'
  | [], [] => by simp [vecEq]
  | [], _ :: _ => by simp [vecEq]
  | _ :: _, [] => by simp [vecEq]
  | a :: l, b :: l' => by rw [vecEq, Bool.and_eq_true, vecEq_forall₂ l l', List.forall₂_cons]

theorem hashContract_vec {T : Type} [PEq T] [RHash T] (h : SliceContract (PEq.peq (A := T)) RHash.hashSlice) :
    HashContract (vecEq (T := T)) vecHash := by
  refine .of_stream (fun a b e => ?_) fun a b r r' e => ?_
  · rw [vecEq_forall₂] at e
    rw [vecHash, vecHash, h.agrees a b e, e.length_eq]
  · simp only [vecHash, List.cons_append, List.cons.injEq, HWrite.int.injEq] at e
    rw [vecEq_forall₂]
    exact h.tells_apart a b r r' (by exact_mod_cast e.1) e.2

theorem forall₂_eq_list {T : Type} {l l' : List T} : List.Forall₂ (fun a b : T => a = b) l l' ↔ l = l' := by
  constructor
  · intro h; induction h with
    | nil => rfl
    | cons e _ ih => rw [e, ih]
  · rintro rfl; induction l with
    | nil => exact .nil
    | cons a l ih => exact .cons rfl ih

theorem hashContract_nat : HashContract (fun a b : Nat => a == b) usizeHash.hash := by
  refine .of_stream (fun a b e => ?_) fun a b r r' e => ?_
  · rw [beq_iff_eq] at e; rw [e]
  · have e' : HWrite.int a :: r = HWrite.int b :: r' := e
    simp only [List.cons.injEq, HWrite.int.injEq, Nat.cast_inj] at e'
    exact ⟨by rw [beq_iff_eq]; exact e'.1, e'.2⟩

theorem hashContract_shape : HashContract (fun a b : List Nat => decide (a = b)) (@vecHash Nat usizeHash) := by
  refine .of_stream (fun a b e => ?_) fun a b r r' e => ?_
  · rw [decide_eq_true_eq] at e; rw [e]
  · have e₀ : HWrite.int a.length :: HWrite.ints (a.map Int.ofNat) :: r = HWrite.int b.length :: HWrite.ints (b.map Int.ofNat) :: r' := e
    simp only [List.cons.injEq, HWrite.ints.injEq] at e₀
    obtain ⟨_, e, e'⟩ := e₀
    exact ⟨by rw [decide_eq_true_eq]; exact List.map_injective_iff.2 (fun _ _ h => Int.ofNat.inj h) e, e'⟩

/-- **C66 (integers).** What the theorems below assume of the numbers holds of every integer type. -/
theorem C66_int [Cfg] (τ : IntTy) : HashContract (numPEq (MInt τ)).peq (RHash.hash (T := MInt τ)) ∧
    SliceContract (numPEq (MInt τ)).peq (RHash.hashSlice (T := MInt τ)) := by
  have he : ∀ a b : MInt τ, (numPEq (MInt τ)).peq a b = true ↔ a = b := fun a b => by
    show POrd.eq a b = true ↔ _
    rw [MInt.eq_iff, decide_eq_true_eq]
    exact ⟨MInt.ext, fun h => by rw [h]⟩
  refine ⟨.of_stream (fun a b e => ?_) fun a b r r' e => ?_, fun l l' e => ?_, fun l l' r r' hl e => ?_⟩
  · rw [(he a b).1 e]
  · simp only [RHash.hash, List.cons_append, List.nil_append, List.cons.injEq, HWrite.int.injEq] at e
    exact ⟨(he a b).2 (MInt.ext e.1), e.2⟩
  · simp only [he, forall₂_eq_list] at e
    rw [e]
  · simp only [RHash.hashSlice, List.cons_append, List.nil_append, List.cons.injEq, HWrite.ints.injEq] at e
    simp only [he, forall₂_eq_list]
    exact ⟨List.map_injective_iff.2 (fun _ _ h => MInt.ext h) e.1, e.2⟩

/-- **C66 (strings).** -/
theorem C66_string : HashContract (eqPEq String).peq strHash.hash ∧ SliceContract (eqPEq String).peq strHash.hashSlice := by
  have h : HashContract (eqPEq String).peq strHash.hash := by
    refine .of_stream (fun a b e => ?_) fun a b r r' e => ?_
    · rw [of_decide_eq_true e]
    · have e₀ : HWrite.bytes (a.toList.map Char.toNat) :: HWrite.int 255 :: r = HWrite.bytes (b.toList.map Char.toNat) :: HWrite.int 255 :: r' := e
      simp only [List.cons.injEq, HWrite.bytes.injEq, true_and] at e₀
      replace e := e₀
      refine ⟨decide_eq_true ?_, e.2⟩
      have := List.map_injective_iff.2 (fun _ _ h => Char.ext (UInt32.toNat_inj.1 h)) e.1
      exact String.toList_inj.1 this
  exact ⟨h, .default h⟩

section
variable {T : Type} [RHash T]

/-- **C66 (bins of numeric axes).** -/
theorem C66_bin_interval [PEq T] (h : HashContract (PEq.peq (A := T)) RHash.hash) : HashContract (PEq.peq (A := BinInterval T)) RHash.hash := by
  refine .of_stream (fun a b e => ?_) fun a b r r' e => ?_
  · cases a <;> cases b <;> simp only [PEq.peq, Bool.and_eq_true, Bool.false_eq_true] at e
    · simp only [RHash.hash]; rw [h.stream e]; rfl
    · simp only [RHash.hash]; rw [h.stream e]; rfl
    · simp only [RHash.hash]; rw [h.stream e.1, h.stream e.2]; rfl
  · cases a <;> cases b <;>
      simp only [RHash.hash, BinInterval.variant, List.cons_append, List.cons.injEq, HWrite.int.injEq, List.append_assoc] at e
    all_goals try (simp at e; done)
    · exact h.tells_apart _ _ _ _ e.2
    · exact h.tells_apart _ _ _ _ e.2
    · obtain ⟨h1, e⟩ := h.tells_apart _ _ _ _ e.2
      obtain ⟨h2, e⟩ := h.tells_apart _ _ _ _ e
      exact ⟨by simp only [PEq.peq]; rw [Bool.and_eq_true]; exact ⟨h1, h2⟩, e⟩
/-- **C66 (bins of category axes).** -/
theorem C66_single_value_interval [PEq T] (h : HashContract (PEq.peq (A := T)) RHash.hash) :
    HashContract (PEq.peq (A := SingleValueBinInterval T)) RHash.hash := by
  refine .of_stream (fun a b e => ?_) fun a b r r' e => ?_
  · cases a <;> cases b <;> simp only [PEq.peq, Bool.false_eq_true] at e
    · rfl
    · simp only [RHash.hash]; rw [h.stream e]; rfl
  · cases a <;> cases b <;>
      simp only [RHash.hash, SingleValueBinInterval.variant, List.cons_append, List.cons.injEq, HWrite.int.injEq, List.nil_append] at e
    all_goals try (simp at e; done)
    · exact ⟨rfl, e.2⟩
    · exact h.tells_apart _ _ _ _ e.2

section
variable [POrd T] (h : HashContract (numPEq T).peq RHash.hash)
include h
/-- **C66 (uniform axes).** -/
theorem C66_uniform : HashContract (PEq.peq (A := Uniform T)) RHash.hash :=
  ((hashContract_nat.comap (Uniform.num (T := T))).both ((h.comap Uniform.low).both ((h.comap Uniform.high).both (h.comap Uniform.step)))).congr
    fun a b => by show (_ && _ && _ && _) = _; simp only [Bool.and_assoc]; rfl
theorem C66_uniform_noflow : HashContract (PEq.peq (A := UniformNoFlow T)) RHash.hash := (C66_uniform h).comap UniformNoFlow.axis
theorem C66_uniform_cyclic : HashContract (PEq.peq (A := UniformCyclic T)) RHash.hash := (C66_uniform_noflow h).comap UniformCyclic.axis
end
section
variable [POrd T] (h : SliceContract (numPEq T).peq RHash.hashSlice)
include h
/-- **C66 (variable axes).** -/
theorem C66_variable : HashContract (PEq.peq (A := Variable T)) RHash.hash :=
  (@hashContract_vec T (numPEq T) _ h).comap Variable.binEdges
theorem C66_variable_noflow : HashContract (PEq.peq (A := VariableNoFlow T)) RHash.hash := (C66_variable h).comap VariableNoFlow.axis
theorem C66_variable_cyclic : HashContract (PEq.peq (A := VariableCyclic T)) RHash.hash := (C66_variable_noflow h).comap VariableCyclic.axis
end

section
variable [PEq T] (h : HashContract (PEq.peq (A := T)) RHash.hash)
include h
/-- **C66 (bin values).** -/
theorem C66_sum : HashContract (PEq.peq (A := Sum T)) RHash.hash := h.comap Sum.sum
theorem C66_weighted_sum : HashContract (PEq.peq (A := WeightedSum T)) RHash.hash := (h.comap WeightedSum.sumw).both (h.comap WeightedSum.sumw2)
theorem C66_mean {O C : Type} [PEq C] [RHash C] (hc : HashContract (PEq.peq (A := C)) RHash.hash) :
    HashContract (PEq.peq (A := Mean T O C)) RHash.hash :=
  ((h.comap (Mean.sumw (O := O) (C := C))).both ((h.comap Mean.sumw2).both (hc.comap Mean.count))).congr
    fun a b => by show (_ && _ && _) = _; rw [Bool.and_assoc]
theorem C66_weighted_mean {W O C : Type} [PEq W] [RHash W] [PEq C] [RHash C] (hw : HashContract (PEq.peq (A := W)) RHash.hash)
    (hc : HashContract (PEq.peq (A := C)) RHash.hash) : HashContract (PEq.peq (A := WeightedMean T W O C)) RHash.hash :=
  ((h.comap (WeightedMean.sumwt (W := W) (O := O) (C := C))).both ((h.comap WeightedMean.sumwt2).both ((hw.comap WeightedMean.sumw).both
    ((hw.comap WeightedMean.sumw2).both (hc.comap WeightedMean.count))))).congr
    fun a b => by show (_ && _ && _ && _ && _) = _; simp only [Bool.and_assoc]
/-- **C66 (items of an iteration).** -/
theorem C66_item {V : Type} [PEq V] [RHash V] (hv : HashContract (PEq.peq (A := V)) RHash.hash) : HashContract (PEq.peq (A := Item T V)) RHash.hash :=
  ((hashContract_nat.comap (Item.index (B := T) (V := V))).both ((h.comap Item.bin).both (hv.comap Item.value))).congr
    fun a b => by show (_ && _ && _) = _; rw [Bool.and_assoc]
/-- **C66 (one axis).** -/
theorem C66_axes1 : HashContract (PEq.peq (A := AxesTuple1 T)) RHash.hash := (h.comap AxesTuple1.axis).both (hashContract_shape.comap AxesTuple1.shape)
/-- **C66 (dense histograms).** -/
theorem C66_vec_histogram {V : Type} [PEq V] [RHash V] (hv : SliceContract (PEq.peq (A := V)) RHash.hashSlice) :
    HashContract (PEq.peq (A := VecHistogram T V)) RHash.hash :=
  ((h.comap (VecHistogram.axes (V := V))).both ((hashContract_vec hv).comap VecHistogram.values)).congr fun a b => by
    show VecHistogram.beq a b = _
    rw [VecHistogram.beq]
    congr 1
    generalize a.values = l, b.values = l'
    rw [Bool.eq_iff_iff, vecEq_forall₂, List.forall₂_iff_zip, Bool.and_eq_true, beq_iff_eq, List.all_eq_true]
    simp
end
end

/-- **C66 (vectors of the crate's types).** The hypothesis on the values of a dense histogram holds for every value type that derives `Hash`. -/
theorem C66_slice {T : Type} {eq : T → T → Bool} {hash : T → List HWrite} (h : HashContract eq hash) : SliceContract eq fun l => l.flatMap hash := .default h

section
variable [Cfg]
/-- **C66 (several axes).** By induction on the number of axes. -/
theorem C66_tuple_nil : HashContract (T := Tup ([] : List AxTy)) TupPEq.peq TupHash.hash :=
  .of_stream (fun _ _ _ => rfl) fun _ _ _ _ e => ⟨rfl, e⟩
theorem C66_tuple_cons {t : AxTy} {ts : List AxTy} [PEq t.A] [RHash t.A] [TupPEq ts] [TupHash ts] (h : HashContract (PEq.peq (A := t.A)) RHash.hash)
    (hs : HashContract (TupPEq.peq (ts := ts)) TupHash.hash) : HashContract (TupPEq.peq (ts := t :: ts)) TupHash.hash :=
  (h.comap (fun a : Tup (t :: ts) => a.1)).both (hs.comap (fun a : Tup (t :: ts) => a.2))
theorem C66_axes {t₀ t₁ : AxTy} {ts : List AxTy} [TupPEq (t₀ :: t₁ :: ts)] [TupHash (t₀ :: t₁ :: ts)]
    (h : HashContract (TupPEq.peq (ts := t₀ :: t₁ :: ts)) TupHash.hash) : HashContract (PEq.peq (A := AxesTuple t₀ t₁ ts)) RHash.hash :=
  (h.comap AxesTuple.axes).both (hashContract_shape.comap AxesTuple.shape)
end

/-- **C66 (errors).** Hashing agrees with `==`, and `==` with identity. -/
theorem C66_errors : HashContract (PEq.peq (A := AxisError)) RHash.hash ∧ HashContract (PEq.peq (A := BinaryOperationError)) RHash.hash ∧
    HashContract (PEq.peq (A := Error)) RHash.hash ∧ (∀ e e' : AxisError, PEq.peq e e' = true ↔ e = e') ∧ (∀ e e' : Error, PEq.peq e e' = true ↔ e = e') := by
  have ha : HashContract (PEq.peq (A := AxisError)) RHash.hash := by
    refine .of_stream (fun a b e => ?_) fun a b r r' e => ?_
    · show [HWrite.int a.variant] = [HWrite.int b.variant]
      rw [show a.variant = b.variant from beq_iff_eq.1 e]
    · simp only [RHash.hash, List.cons_append, List.nil_append, List.cons.injEq, HWrite.int.injEq, Nat.cast_inj] at e
      exact ⟨beq_iff_eq.2 e.1, e.2⟩
  have hb : HashContract (PEq.peq (A := BinaryOperationError)) RHash.hash := .of_stream (fun _ _ _ => rfl) fun _ _ _ _ e => ⟨rfl, e⟩
  refine ⟨ha, hb, .of_stream (fun a b e => ?_) fun a b r r' e => ?_, fun e e' => by cases e <;> cases e' <;> decide, ?_⟩
  · cases a <;> cases b <;> simp only [PEq.peq, Bool.false_eq_true] at e
    · rfl
    · simp only [RHash.hash]; exact congrArg₂ _ rfl (ha.stream e)
  · cases a <;> cases b <;> simp only [RHash.hash, Error.variant, List.cons_append, List.cons.injEq, HWrite.int.injEq] at e
    all_goals try (simp at e; done)
    · exact ⟨rfl, e.2⟩
    · exact ha.tells_apart _ _ r r' (by simpa [RHash.hash] using e.2)
  · intro e e'
    rcases e with ⟨⟨⟩⟩ | e <;> rcases e' with ⟨⟨⟩⟩ | e'
    · decide
    · cases e' <;> decide
    · cases e <;> decide
    · cases e <;> cases e' <;> decide

/-- The errors in the order in which they are declared. -/
def errorsInOrder : List Error := [.BinaryOperationError .mk, .AxisError .InvalidNumberOfBins, .AxisError .InvalidAxisRange, .AxisError .InvalidStepSize, .AxisError .InvalidNumberOfBinEdges, .AxisError .FailedToSortBinEdges]

/-- **C60 (order of the errors).** Every error is in the list, and errors compare like their places in it; axis errors compare like the errors they convert to. -/
theorem C60_error_order : (∀ e, e ∈ errorsInOrder) ∧ (∀ (i j : Nat) (e e' : Error), errorsInOrder[i]? = some e → errorsInOrder[j]? = some e' → POrd.pcmp e e' = some (compare i j)) ∧
    ∀ e e' : AxisError, POrd.pcmp e e' = POrd.pcmp (Error.AxisError e) (Error.AxisError e') := by
  refine ⟨?_, ?_, fun e e' => rfl⟩
  · rintro (⟨⟨⟩⟩ | e)
    · decide
    · cases e <;> decide
  · intro i j e e' h h'
    have hi : i < 6 := (List.getElem?_eq_some_iff.1 h).1
    have hj : j < 6 := (List.getElem?_eq_some_iff.1 h').1
    have key : ∀ i < (6 : Nat), ∀ j < (6 : Nat), ∀ e ∈ errorsInOrder, ∀ e' ∈ errorsInOrder, errorsInOrder[i]? = some e → errorsInOrder[j]? = some e' → POrd.pcmp e e' = some (compare i j) := by decide
    exact key i hi j hj e (List.mem_of_getElem? h) e' (List.mem_of_getElem? h') h h'

/-- **C60 (errors).** -/
theorem C60_errors : TotalLaws (PEq.peq (A := AxisError)) POrd.pcmp ∧ TotalLaws (PEq.peq (A := Error)) POrd.pcmp := by
  have hv : ∀ e e' : AxisError, e.variant = e'.variant ↔ e = e' := fun e e' => by cases e <;> cases e' <;> decide
  have ha : TotalLaws (PEq.peq (A := AxisError)) POrd.pcmp := by
    have h := totalLaws_nat.toCmpLaws.comap AxisError.variant
    refine ⟨h, fun a b => ⟨_, rfl⟩, fun a b => ?_⟩
    rw [← hv a b]
    exact totalLaws_nat.ident _ _
  refine ⟨ha, ⟨?_, ?_, ?_, ?_⟩, ?_, ?_⟩
  · rintro (⟨⟨⟩⟩ | a) (⟨⟨⟩⟩ | b)
    · decide
    · exact ⟨fun h => by simp [PEq.peq] at h, fun h => by simp [POrd.pcmp, Error.variant] at h⟩
    · exact ⟨fun h => by simp [PEq.peq] at h, fun h => by simp [POrd.pcmp, Error.variant] at h⟩
    · exact ha.eq_iff a b
  · rintro (⟨⟨⟩⟩ | a) (⟨⟨⟩⟩ | b)
    · decide
    · rfl
    · rfl
    · exact ha.dual a b
  · rintro (⟨⟨⟩⟩ | a) (⟨⟨⟩⟩ | b) (⟨⟨⟩⟩ | c) h h'
    all_goals first | exact ha.trans a b c h h' | exact h | exact h' | rfl | (simp [POrd.pcmp, Error.variant, Nat.compare_eq_lt] at h; done) | (simp [POrd.pcmp, Error.variant, Nat.compare_eq_lt] at h'; done)
  · rintro (⟨⟨⟩⟩ | a) (⟨⟨⟩⟩ | b) (⟨⟨⟩⟩ | c) h
    all_goals first | exact ha.eq_left a b c h | rfl | (simp [POrd.pcmp, Error.variant] at h; done)
  · rintro (⟨⟨⟩⟩ | a) (⟨⟨⟩⟩ | b)
    all_goals exact ⟨_, rfl⟩
  · rintro (⟨⟨⟩⟩ | a) (⟨⟨⟩⟩ | b)
    · decide
    · exact ⟨fun h => by simp [POrd.pcmp, Error.variant] at h, fun h => by cases h⟩
    · exact ⟨fun h => by simp [POrd.pcmp, Error.variant] at h, fun h => by cases h⟩
    · rw [Error.AxisError.injEq]; exact ha.ident a b

end NdHist
