import Verif.SpecEqual
import Verif.Lemmas.Ord
import Verif.Lemmas.Hist
import Verif.Lemmas.Axes
import Verif.Props.Merge
import Verif.Props.AxisEq
import Verif.Props.Access
import Verif.Props.Fill
/-!
# C53: equal axes and histograms cannot be told apart
-/
namespace NdHist
open POrd RNum

/-! ## Numbers -/

/-- The operations of a coordinate type do not distinguish numbers that are the same up to the sign of zero, as far as the axes use them: the second
operand of a division may only differ if the quotient is rounded down to a `usize`. -/
class EqCongr (T : Type) [Cfg] [RNum T] extends LawfulPOrd T where
  add {a a' b b' : T} : SameNum a a' → SameNum b b' → SameOutcome SameNum (RNum.add a b) (RNum.add a' b')
  sub {a a' b b' : T} : SameNum a a' → SameNum b b' → SameOutcome SameNum (RNum.sub a b) (RNum.sub a' b')
  mul {a a' b b' : T} : SameNum a a' → SameNum b b' → SameOutcome SameNum (RNum.mul a b) (RNum.mul a' b')
  rem {a a' b b' : T} : SameNum a a' → SameNum b b' → SameOutcome SameNum (RNum.rem a b) (RNum.rem a' b')
  div {a a' b : T} : SameNum a a' → SameOutcome SameNum (RNum.div a b) (RNum.div a' b)
  steps {a a' b b' : T} : SameNum a a' → SameNum b b' →
    SameOutcome (fun x y => RNum.toUsize x = RNum.toUsize y) (RNum.div a b) (RNum.div a' b')

section
variable {α β : Type} {r : α → α → Prop} {s : β → β → Prop}

theorem SameOutcome.bind {x x' : Res α} {f f' : α → Res β} (h : SameOutcome r x x') (hf : ∀ a a', r a a' → SameOutcome s (f a) (f' a')) :
    SameOutcome s (x >>= f) (x' >>= f') := by
  cases x <;> cases x' <;> simp only [SameOutcome] at h
  · exact h
  · exact hf _ _ h

theorem SameOutcome.eq {x x' : Res α} (h : SameOutcome (fun a b => a = b) x x') : x = x' := by
  cases x <;> cases x' <;> simp only [SameOutcome] at h <;> rw [h]

theorem SameOutcome.bindEq {x x' : Res α} {f f' : α → Res β} (h : SameOutcome r x x') (hf : ∀ a a', r a a' → f a = f' a') :
    (x >>= f) = (x' >>= f') := by
  cases x <;> cases x' <;> simp only [SameOutcome] at h
  · rw [h]; rfl
  · exact hf _ _ h

theorem SameOutcome.self {x : Res α} (h : ∀ a, r a a) : SameOutcome r x x := by
  cases x
  · rfl
  · exact h _
end

namespace SameNum
variable {T : Type} [POrd T] [LawfulPOrd T]

theorem key {x y : T} (h : SameNum x y) : LawfulPOrd.key x = LawfulPOrd.key y := by
  rcases h with rfl | h
  · rfl
  · obtain ⟨k, h1, h2⟩ := LawfulPOrd.eq_iff.1 h
    rw [h1, h2]

theorem pcmp {x x' y y' : T} (h : SameNum x x') (h' : SameNum y y') : POrd.pcmp x y = POrd.pcmp x' y' := by
  rw [LawfulPOrd.pcmp_eq, LawfulPOrd.pcmp_eq, h.key, h'.key]

theorem lt {x x' y y' : T} (h : SameNum x x') (h' : SameNum y y') : POrd.lt x y = POrd.lt x' y' := by
  unfold POrd.lt; rw [h.pcmp h']
theorem le {x x' y y' : T} (h : SameNum x x') (h' : SameNum y y') : POrd.le x y = POrd.le x' y' := by
  unfold POrd.le; rw [h.pcmp h']
theorem ge {x x' y y' : T} (h : SameNum x x') (h' : SameNum y y') : POrd.ge x y = POrd.ge x' y' := by
  unfold POrd.ge; rw [h.pcmp h']

omit [LawfulPOrd T] in
theorem rfl' (x : T) : SameNum x x := Or.inl rfl
end SameNum

theorem MInt.same_iff [Cfg] {τ : IntTy} {x y : MInt τ} : SameNum x y ↔ x = y := by
  constructor
  · rintro (h | h)
    · exact h
    · exact MInt.ext (by simpa [MInt.eq_iff] using h)
  · exact Or.inl

instance [Cfg] {τ : IntTy} : EqCongr (MInt τ) where
  add h h' := by rw [MInt.same_iff.1 h, MInt.same_iff.1 h']; exact SameOutcome.self SameNum.rfl'
  sub h h' := by rw [MInt.same_iff.1 h, MInt.same_iff.1 h']; exact SameOutcome.self SameNum.rfl'
  mul h h' := by rw [MInt.same_iff.1 h, MInt.same_iff.1 h']; exact SameOutcome.self SameNum.rfl'
  rem h h' := by rw [MInt.same_iff.1 h, MInt.same_iff.1 h']; exact SameOutcome.self SameNum.rfl'
  div h := by rw [MInt.same_iff.1 h]; exact SameOutcome.self SameNum.rfl'
  steps h h' := by rw [MInt.same_iff.1 h, MInt.same_iff.1 h']; exact SameOutcome.self fun _ => rfl

namespace Flt
variable {F : FFmt}

/-- the same float up to the sign of zero -/
theorem same_iff [Cfg] {x y : Flt F} : SameNum x y ↔ x = y ∨ ∃ s t, x = zero s ∧ y = zero t := by
  constructor
  · rintro (h | h)
    · exact Or.inl h
    · obtain ⟨k, h1, h2⟩ := LawfulPOrd.eq_iff.1 h
      change key x = some k at h1
      change key y = some k at h2
      have h3 : key x = key y := by rw [h1, h2]
      match x, y with
      | .nan, _ => cases h1
      | .inf true, .nan => cases h2
      | .inf false, .nan => cases h2
      | .fin _ _ _, .nan => cases h2
      | .inf true, .inf true => exact Or.inl rfl
      | .inf false, .inf false => exact Or.inl rfl
      | .inf true, .inf false => simp [key] at h3
      | .inf false, .inf true => simp [key] at h3
      | .inf true, .fin s m h => simp [key] at h3
      | .inf false, .fin s m h => simp [key] at h3
      | .fin s m h, .inf true => simp [key] at h3
      | .fin s m h, .inf false => simp [key] at h3
      | .fin s m h, .fin t n h' =>
        simp only [key, Option.some.injEq, WithBot.coe_inj, WithTop.coe_inj] at h3
        have hm := h.nonneg
        have hn := h'.nonneg
        cases s <;> cases t <;> simp only [sval, if_true, if_false, Bool.false_eq_true] at h3
        · left; subst h3; rfl
        · right; exact ⟨false, true, by have : m = 0 := by linarith
                                        subst this; rfl, by have : n = 0 := by linarith
                                                            subst this; rfl⟩
        · right; exact ⟨true, false, by have : m = 0 := by linarith
                                        subst this; rfl, by have : n = 0 := by linarith
                                                            subst this; rfl⟩
        · left
          have : m = n := by linarith
          subst this; rfl
  · rintro (h | ⟨s, t, rfl, rfl⟩)
    · exact Or.inl h
    · right
      cases s <;> cases t <;> simp [POrd.eq, POrd.pcmp, pcmp, zero, sval]


variable [Cfg]

theorem same_trans {x y z : Flt F} (h : SameNum x y) (h' : SameNum y z) : SameNum x z := by
  rw [same_iff] at *
  rcases h with rfl | ⟨s, t, rfl, rfl⟩
  · exact h'
  · rcases h' with rfl | ⟨s', t', -, rfl⟩
    · exact Or.inr ⟨s, t, rfl, rfl⟩
    · exact Or.inr ⟨s, t', rfl, rfl⟩

theorem same_zero (s t : Bool) : SameNum (zero s : Flt F) (zero t) := same_iff.2 (Or.inr ⟨s, t, rfl, rfl⟩)

omit [Cfg] in
theorem round_zero {s : Bool} {x : ℚ} (hx : 0 ≤ x) (h : x = 0) : (round s x hx : Flt F) = zero s := by
  subst h
  unfold round
  have h0 : F.rnd 0 = 0 := F.rnd_zero
  have : F.rnd 0 ≤ F.maxFin := by rw [h0]; exact F.maxFin_pos.le
  rw [dif_pos this]
  unfold zero
  simp only [h0]

theorem same_add_left (s t : Bool) (y : Flt F) : SameNum (add (zero s) y) (add (zero t) y) := by
  match y with
  | .nan => exact Or.inl rfl
  | .inf u => exact Or.inl rfl
  | .fin u b hb =>
    have e : ∀ s, sval s 0 + sval u b = sval u b := by intro s; cases s <;> simp [sval]
    simp only [add, zero, e]
    split
    · exact same_zero _ _
    · exact Or.inl rfl

theorem same_add_right (s t : Bool) (x : Flt F) : SameNum (add x (zero s)) (add x (zero t)) := by
  match x with
  | .nan => exact Or.inl rfl
  | .inf u => exact Or.inl rfl
  | .fin u b hb =>
    have e : ∀ s, sval u b + sval s 0 = sval u b := by intro s; cases s <;> simp [sval]
    simp only [add, zero, e]
    split
    · exact same_zero _ _
    · exact Or.inl rfl

theorem same_add {a a' b b' : Flt F} (h : SameNum a a') (h' : SameNum b b') : SameNum (add a b) (add a' b') := by
  have h1 : SameNum (add a b) (add a' b) := by
    rcases same_iff.1 h with rfl | ⟨s, t, rfl, rfl⟩
    · exact Or.inl rfl
    · exact same_add_left _ _ _
  have h2 : SameNum (add a' b) (add a' b') := by
    rcases same_iff.1 h' with rfl | ⟨s, t, rfl, rfl⟩
    · exact Or.inl rfl
    · exact same_add_right _ _ _
  exact same_trans h1 h2

theorem same_sub {a a' b b' : Flt F} (h : SameNum a a') (h' : SameNum b b') : SameNum (sub a b) (sub a' b') := by
  refine same_add h ?_
  rcases same_iff.1 h' with rfl | ⟨s, t, rfl, rfl⟩
  · exact Or.inl rfl
  · exact same_zero _ _

theorem same_mul_left (s t : Bool) (y : Flt F) : SameNum (mul (zero s) y) (mul (zero t) y) := by
  match y with
  | .nan => exact Or.inl rfl
  | .inf u => left; simp [mul, zero]
  | .fin u b hb =>
    simp only [mul, zero]
    rw [round_zero _ (by simp), round_zero _ (by simp)]
    exact same_zero _ _

theorem same_mul_right (s t : Bool) (x : Flt F) : SameNum (mul x (zero s)) (mul x (zero t)) := by
  match x with
  | .nan => exact Or.inl rfl
  | .inf u => left; simp [mul, zero]
  | .fin u b hb =>
    simp only [mul, zero]
    rw [round_zero _ (by simp), round_zero _ (by simp)]
    exact same_zero _ _

theorem same_mul {a a' b b' : Flt F} (h : SameNum a a') (h' : SameNum b b') : SameNum (mul a b) (mul a' b') := by
  have h1 : SameNum (mul a b) (mul a' b) := by
    rcases same_iff.1 h with rfl | ⟨s, t, rfl, rfl⟩
    · exact Or.inl rfl
    · exact same_mul_left _ _ _
  have h2 : SameNum (mul a' b) (mul a' b') := by
    rcases same_iff.1 h' with rfl | ⟨s, t, rfl, rfl⟩
    · exact Or.inl rfl
    · exact same_mul_right _ _ _
  exact same_trans h1 h2

theorem same_rem {a a' b b' : Flt F} (h : SameNum a a') (h' : SameNum b b') : SameNum (rem a b) (rem a' b') := by
  have h1 : SameNum (rem a b) (rem a' b) := by
    rcases same_iff.1 h with rfl | ⟨s, t, rfl, rfl⟩
    · exact Or.inl rfl
    · match b with
      | .nan => exact Or.inl rfl
      | .inf u => exact same_zero _ _
      | .fin u b hb =>
        simp only [rem, zero]
        split
        · exact Or.inl rfl
        · rw [round_zero _ (by simp), round_zero _ (by simp)]
          exact same_zero _ _
  have h2 : SameNum (rem a' b) (rem a' b') := by
    rcases same_iff.1 h' with rfl | ⟨s, t, rfl, rfl⟩
    · exact Or.inl rfl
    · left
      match a' with
      | .nan => rfl
      | .inf u => rfl
      | .fin u b hb => simp [rem, zero]
  exact same_trans h1 h2

theorem same_div {a a' b : Flt F} (h : SameNum a a') : SameNum (div a b) (div a' b) := by
  rcases same_iff.1 h with rfl | ⟨s, t, rfl, rfl⟩
  · exact Or.inl rfl
  · match b with
    | .nan => exact Or.inl rfl
    | .inf u => exact same_zero _ _
    | .fin u b hb =>
      simp only [div, zero, if_true]
      split
      · exact Or.inl rfl
      · rw [round_zero _ (by simp), round_zero _ (by simp)]
        exact same_zero _ _

theorem same_toUsize {a a' : Flt F} (h : SameNum a a') : toUsize a = toUsize a' := by
  rcases same_iff.1 h with rfl | ⟨s, t, rfl, rfl⟩
  · rfl
  · have : (0 : ℚ) < (usizeSize : ℚ) := by exact_mod_cast Nat.two_pow_pos _
    cases s <;> cases t <;> simp [toUsize, zero, this]

instance : EqCongr (Flt F) where
  add h h' := same_add h h'
  sub h h' := same_sub h h'
  mul h h' := same_mul h h'
  rem h h' := same_rem h h'
  div h := same_div h
  steps {a a' b b'} h h' := by
    show toUsize (div a b) = toUsize (div a' b')
    rw [same_toUsize (same_div h)]
    rcases same_iff.1 h' with rfl | ⟨s, t, rfl, rfl⟩
    · rfl
    · match a' with
      | .nan => rfl
      | .inf u => simp [div, zero, toUsize]
      | .fin u x hx =>
        simp only [div, zero, if_true]
        split <;> rfl

end Flt

/-! ## Single axes -/

section
variable [Cfg]

/-- the same bins contain the same coordinates -/
theorem BinInterval.Same.covers {T : Type} [POrd T] [LawfulPOrd T] {b b' : BinInterval T} (h : b.Same b') (c : T) : b.Covers c ↔ b'.Covers c := by
  cases b <;> cases b' <;> simp only [BinInterval.Same] at h <;> simp only [BinInterval.Covers]
  · rw [SameNum.lt (SameNum.rfl' c) h]
  · rw [SameNum.le h (SameNum.rfl' c)]
  · rw [SameNum.le h.1 (SameNum.rfl' c), SameNum.lt (SameNum.rfl' c) h.2]

section
variable {T : Type} [RNum T] [EqCongr T]

theorem Uniform.peq_iff {a b : Uniform T} : PEq.peq a b = true ↔
    a.num = b.num ∧ POrd.eq a.low b.low = true ∧ POrd.eq a.high b.high = true ∧ POrd.eq a.step b.step = true := by
  show (a.num == b.num && POrd.eq a.low b.low && POrd.eq a.high b.high && POrd.eq a.step b.step) = true ↔ _
  simp [and_assoc]

theorem Uniform.index_same {a b : Uniform T} (h : PEq.peq a b = true) {c c' : T} (hc : SameNum c c') : a.index c = b.index c' := by
  obtain ⟨h1, h2, h3, h4⟩ := Uniform.peq_iff.1 h
  unfold Uniform.index
  rw [SameNum.lt hc (Or.inr h2), SameNum.ge hc (Or.inr h3), h1]
  have key : (do
      let d ← RNum.sub c a.low
      let steps ← RNum.div d a.step
      let i ← uadd ((RNum.toUsize steps).getD b.num) 1
      pure (some i) : Res (Option Nat)) = (do
      let d ← RNum.sub c' b.low
      let steps ← RNum.div d b.step
      let i ← uadd ((RNum.toUsize steps).getD b.num) 1
      pure (some i)) := by
    refine SameOutcome.bindEq (EqCongr.sub hc (Or.inr h2)) fun d d' hd => ?_
    refine SameOutcome.bindEq (EqCongr.steps hd (Or.inr h4)) fun x x' hx => ?_
    rw [hx]
  rw [key]

theorem Uniform.edge_same {a b : Uniform T} (h : PEq.peq a b = true) (k : Nat) :
    SameOutcome (SameOption SameNum) (a.edge k) (b.edge k) := by
  obtain ⟨h1, h2, h3, h4⟩ := Uniform.peq_iff.1 h
  unfold Uniform.edge
  cases (ofUsize k : Option T) with
  | none => trivial
  | some kt =>
    refine SameOutcome.bind (EqCongr.sub (Or.inr h3) (Or.inr h2)) fun r r' hr => ?_
    refine SameOutcome.bind (EqCongr.mul (SameNum.rfl' kt) hr) fun p p' hp => ?_
    rw [h1]
    cases (ofUsize b.num : Option T) with
    | none => trivial
    | some nt =>
      refine SameOutcome.bind (EqCongr.div hp) fun q q' hq => ?_
      refine SameOutcome.bind (EqCongr.add (Or.inr h2) hq) fun e e' he => ?_
      exact he

/-- C53: uniform axes over integers and floats -/
theorem C53_uniform {a b : Uniform T} (h : PEq.peq a b = true) : SameAxis a b BinInterval.Same := by
  obtain ⟨h1, h2, h3, h4⟩ := Uniform.peq_iff.1 h
  refine ⟨?_, fun c => Uniform.index_same h (SameNum.rfl' c), fun i => ?_⟩
  · show uadd a.num 2 = uadd b.num 2
    rw [h1]
  · show SameOutcome _ (a.bin i) (b.bin i)
    unfold Uniform.bin
    split
    · exact Or.inr h2
    · rw [h1]
      refine SameOutcome.bind (r := fun x y => x = y) (SameOutcome.self fun _ => rfl) ?_
      rintro n _ rfl
      split
      · exact Or.inr h3
      split
      · trivial
      refine SameOutcome.bind (Uniform.edge_same h (i - 1)) fun o o' ho => ?_
      cases o <;> cases o' <;> simp only [SameOption] at ho
      · trivial
      refine SameOutcome.bind (Uniform.edge_same h i) fun p p' hp => ?_
      cases p <;> cases p' <;> simp only [SameOption] at hp
      · trivial
      exact ⟨ho, hp⟩

theorem UniformNoFlow.index_same {a b : UniformNoFlow T} (h : PEq.peq a b = true) {c c' : T} (hc : SameNum c c') : a.index c = b.index c' := by
  have h' : PEq.peq a.axis b.axis = true := h
  obtain ⟨h1, -⟩ := Uniform.peq_iff.1 h'
  unfold UniformNoFlow.index Uniform.numBins
  rw [Uniform.index_same h' hc, h1]

/-- C53: uniform axes without flow bins -/
theorem C53_uniform_noflow {a b : UniformNoFlow T} (h : PEq.peq a b = true) : SameAxis a b BinInterval.Same := by
  have h' : PEq.peq a.axis b.axis = true := h
  have s := C53_uniform h'
  refine ⟨?_, fun c => UniformNoFlow.index_same h (SameNum.rfl' c), fun i => ?_⟩
  · show (do let n ← Uniform.numBins a.axis; usub n 2) = (do let n ← Uniform.numBins b.axis; usub n 2)
    rw [show Uniform.numBins a.axis = Uniform.numBins b.axis from s.numBins]
  · show SameOutcome _ (a.bin i) (b.bin i)
    unfold UniformNoFlow.bin
    refine SameOutcome.bind (r := fun x y => x = y) (SameOutcome.self fun _ => rfl) ?_
    rintro n _ rfl
    refine SameOutcome.bind (s.bin n) fun o o' ho => ?_
    cases o <;> cases o' <;> simp only [SameOption] at ho
    · trivial
    · rename_i x y
      cases x <;> cases y <;> simp only [BinInterval.Same] at ho
      · trivial
      · trivial
      · exact ho

theorem wrapAround_same {lo lo' hi hi' x x' : T} (h1 : SameNum lo lo') (h2 : SameNum hi hi') (h3 : SameNum x x') :
    SameOutcome SameNum (wrapAround lo hi x) (wrapAround lo' hi' x') := by
  unfold wrapAround
  refine SameOutcome.bind (EqCongr.sub h2 h1) fun g g' hg => ?_
  refine SameOutcome.bind (EqCongr.sub h3 h1) fun d d' hd => ?_
  refine SameOutcome.bind (EqCongr.rem hd hg) fun r r' hr => ?_
  rw [SameNum.lt hr (SameNum.rfl' (zero : T))]
  split
  · exact SameOutcome.bind (EqCongr.add hg hr) fun s s' hs => EqCongr.add hs h1
  · exact EqCongr.add hr h1

/-- C53: cyclic uniform axes -/
theorem C53_uniform_cyclic {a b : UniformCyclic T} (h : PEq.peq a b = true) : SameAxis a b BinInterval.Same := by
  have h' : PEq.peq a.axis b.axis = true := h
  have s := C53_uniform_noflow h'
  refine ⟨s.numBins, fun c => ?_, s.bin⟩
  show a.index c = b.index c
  obtain ⟨h1, h2, h3, h4⟩ := Uniform.peq_iff.1 (show PEq.peq a.axis.axis b.axis.axis = true from h)
  exact SameOutcome.bindEq (wrapAround_same (Or.inr h2) (Or.inr h3) (SameNum.rfl' c)) fun x x' hx => UniformNoFlow.index_same h' hx
end

section
variable {T : Type} [POrd T] [LawfulPOrd T] [StdLib]

theorem Variable.edges_same {a b : Variable T} (h : PEq.peq a b = true) : List.Forall₂ SameNum a.binEdges b.binEdges := by
  have h' : @vecEq T (numPEq T) a.binEdges b.binEdges = true := h
  rw [@vecEq_iff _ (numPEq T)] at h'
  exact h'.imp fun x y hxy => Or.inr hxy

omit [LawfulPOrd T] [StdLib] in
theorem forall₂_getElem? {l l' : List T} (h : List.Forall₂ SameNum l l') (i : Nat) : SameOption SameNum l[i]? l'[i]? := by
  induction h generalizing i with
  | nil => simp [SameOption]
  | cons h1 _ ih =>
    cases i with
    | zero => exact h1
    | succ i => simpa using ih i

theorem Variable.index_same {a b : Variable T} (h : PEq.peq a b = true) {c c' : T} (hc : SameNum c c') : a.index c = b.index c' := by
  have he := Variable.edges_same h
  have hp : a.probeCmp c = b.probeCmp c' := by
    funext i
    have := forall₂_getElem? he i
    unfold Variable.probeCmp
    cases h1 : a.binEdges[i]? <;> cases h2 : b.binEdges[i]? <;> rw [h1, h2] at this <;> simp only [SameOption] at this
    rename_i x y
    simp only [SameNum.pcmp this hc]
  unfold Variable.index
  rw [hp, he.length_eq]

omit [LawfulPOrd T] in
theorem Variable.low_same {a b : Variable T} (h : List.Forall₂ SameNum a.binEdges b.binEdges) :
    SameOutcome SameNum a.low b.low ∧ SameOutcome SameNum a.high b.high := by
  have e : ∀ o o' : Option T, SameOption SameNum o o' → SameOutcome SameNum (expect o) (expect o') := by
    intro o o' ho
    cases o <;> cases o' <;> simp only [SameOption] at ho
    · rfl
    · exact ho
  refine ⟨e _ _ ?_, e _ _ ?_⟩
  · rw [List.head?_eq_getElem?, List.head?_eq_getElem?]
    exact forall₂_getElem? h 0
  · rw [List.getLast?_eq_getElem?, List.getLast?_eq_getElem?, h.length_eq]
    exact forall₂_getElem? h _

/-- C53: variable-width axes -/
theorem C53_variable {a b : Variable T} (h : PEq.peq a b = true) : SameAxis a b BinInterval.Same := by
  have he := Variable.edges_same h
  have hs := fun i => forall₂_getElem? he i
  have hslice : ∀ i, SameOutcome SameNum (indexSlice a.binEdges i) (indexSlice b.binEdges i) := by
    intro i
    have := hs i
    unfold indexSlice
    cases h1 : a.binEdges[i]? <;> cases h2 : b.binEdges[i]? <;> rw [h1, h2] at this <;> simp only [SameOption] at this
    · rfl
    · exact this
  refine ⟨?_, fun c => Variable.index_same h (SameNum.rfl' c), fun i => ?_⟩
  · show uadd a.binEdges.length 1 = uadd b.binEdges.length 1
    rw [he.length_eq]
  · show SameOutcome _ (a.bin i) (b.bin i)
    unfold Variable.bin
    rw [he.length_eq]
    split
    · exact SameOutcome.bind (Variable.low_same he).1 fun x y hxy => hxy
    split
    · exact SameOutcome.bind (Variable.low_same he).2 fun x y hxy => hxy
    split
    · exact SameOutcome.bind (hslice _) fun x y hxy => SameOutcome.bind (hslice _) fun x' y' hxy' => ⟨hxy, hxy'⟩
    · trivial

theorem VariableNoFlow.index_same {a b : VariableNoFlow T} (h : PEq.peq a b = true) {c c' : T} (hc : SameNum c c') : a.index c = b.index c' := by
  have h' : PEq.peq a.axis b.axis = true := h
  unfold VariableNoFlow.index Variable.numBins
  rw [Variable.index_same h' hc, (Variable.edges_same h').length_eq]

/-- C53: variable-width axes without flow bins -/
theorem C53_variable_noflow {a b : VariableNoFlow T} (h : PEq.peq a b = true) : SameAxis a b BinInterval.Same := by
  have h' : PEq.peq a.axis b.axis = true := h
  have s := C53_variable h'
  refine ⟨?_, fun c => VariableNoFlow.index_same h (SameNum.rfl' c), fun i => ?_⟩
  · show (do let n ← Variable.numBins a.axis; usub n 2) = (do let n ← Variable.numBins b.axis; usub n 2)
    rw [show Variable.numBins a.axis = Variable.numBins b.axis from s.numBins]
  · show SameOutcome _ (a.bin i) (b.bin i)
    unfold VariableNoFlow.bin
    refine SameOutcome.bind (r := fun x y => x = y) (SameOutcome.self fun _ => rfl) ?_
    rintro n _ rfl
    refine SameOutcome.bind (s.bin n) fun o o' ho => ?_
    cases o <;> cases o' <;> simp only [SameOption] at ho
    · trivial
    · rename_i x y
      cases x <;> cases y <;> simp only [BinInterval.Same] at ho
      · trivial
      · trivial
      · exact ho
end

/-- C53: cyclic variable-width axes -/
theorem C53_variable_cyclic {T : Type} [RNum T] [EqCongr T] [StdLib] {a b : VariableCyclic T} (h : PEq.peq a b = true) :
    SameAxis a b BinInterval.Same := by
  have h' : PEq.peq a.axis b.axis = true := h
  have h'' : PEq.peq a.axis.axis b.axis.axis = true := h
  have s := C53_variable_noflow h'
  have hlh := Variable.low_same (Variable.edges_same h'')
  refine ⟨s.numBins, fun c => ?_, s.bin⟩
  show a.index c = b.index c
  refine SameOutcome.bindEq hlh.2 fun hi hi' h1 => SameOutcome.bindEq hlh.1 fun lo lo' h2 => ?_
  exact SameOutcome.bindEq (wrapAround_same h2 h1 (SameNum.rfl' c)) fun x x' hx => VariableNoFlow.index_same h' hx

/-- C53: category axes made from lists of categories are identical when equal -/
theorem C53_category {T : Type} [DecidableEq T] {vs vs' : List T} :
    (PEq.peq (Category.new vs) (Category.new vs') = true → SameAxis (Category.new vs) (Category.new vs') (fun b b' => b = b')) ∧
    (PEq.peq (CategoryNoFlow.new vs) (CategoryNoFlow.new vs') = true →
      SameAxis (CategoryNoFlow.new vs) (CategoryNoFlow.new vs') (fun b b' => b = b')) := by
  have e : ∀ {α : Type} (x : Res (Option α)), SameOutcome (SameOption fun b b' => b = b') x x := by
    intro α x
    refine SameOutcome.self fun o => ?_
    cases o
    · trivial
    · rfl
  constructor
  · intro h
    rw [(C45_category vs vs').1.1 h]
    exact ⟨rfl, fun _ => rfl, fun _ => e _⟩
  · intro h
    rw [(C45_category vs vs').2.1 h]
    exact ⟨rfl, fun _ => rfl, fun _ => e _⟩

/-! ## Tuples -/

/-- C53: 1-tuples -/
theorem C53_tuple1 {X : Type} [Axis X] [PEq X] {same : Axis.Interval X → Axis.Interval X → Prop}
    {a b : AxesTuple1 X} (hX : PEq.peq a.axis b.axis = true → SameAxis a.axis b.axis same) (h : PEq.peq a b = true) :
    SameAxis a b same := by
  have h' : (PEq.peq a.axis b.axis && decide (a.shape = b.shape)) = true := h
  rw [Bool.and_eq_true] at h'
  have s := hX h'.1
  exact ⟨s.numBins, s.index, s.bin⟩

/-- C53: the axes of a tuple, from its first axis and the rest -/
theorem C53_tuple_cons {t : AxTy} {ts : List AxTy} [PEq t.A] [TupPEq ts] {same : Axis.Interval t.A → Axis.Interval t.A → Prop} {rs : TupRel ts}
    {x y : t.A} {xs ys : Tup ts} (hX : PEq.peq x y = true → SameAxis x y same) (hts : TupPEq.peq xs ys = true → TupSame xs ys rs) :
    TupPEq.peq (ts := t :: ts) (x, xs) (y, ys) = true → TupSame (ts := t :: ts) (x, xs) (y, ys) (same, rs) := by
  intro h
  have h' : (PEq.peq x y && TupPEq.peq xs ys) = true := h
  rw [Bool.and_eq_true] at h'
  exact ⟨hX h'.1, hts h'.2⟩

theorem TupSame.numBinsList {ts : List AxTy} {x y : Tup ts} {rs : TupRel ts} (h : TupSame x y rs) : x.numBinsList = y.numBinsList := by
  induction ts with
  | nil => rfl
  | cons t ts ih =>
    obtain ⟨a, as⟩ := x
    obtain ⟨b, bs⟩ := y
    obtain ⟨r, rs⟩ := rs
    obtain ⟨h1, h2⟩ := h
    rw [Tup.numBinsList_cons, Tup.numBinsList_cons, h1.numBins, ih h2]

theorem TupSame.indices {ts : List AxTy} {x y : Tup ts} {rs : TupRel ts} (h : TupSame x y rs) (c : Coords ts) : x.indices c = y.indices c := by
  induction ts with
  | nil => rfl
  | cons t ts ih =>
    obtain ⟨a, as⟩ := x
    obtain ⟨b, bs⟩ := y
    obtain ⟨r, rs⟩ := rs
    obtain ⟨c, cs⟩ := c
    obtain ⟨h1, h2⟩ := h
    rw [Tup.indices_cons, Tup.indices_cons, h1.index c, ih h2 cs]

theorem TupSame.bins {ts : List AxTy} {x y : Tup ts} {rs : TupRel ts} (h : TupSame x y rs) (is : List Nat) :
    SameOutcome (SameOption (SameAll rs)) (x.bins is) (y.bins is) := by
  induction ts generalizing is with
  | nil => trivial
  | cons t ts ih =>
    obtain ⟨a, as⟩ := x
    obtain ⟨b, bs⟩ := y
    obtain ⟨r, rs⟩ := rs
    obtain ⟨h1, h2⟩ := h
    cases is with
    | nil => rfl
    | cons i is =>
      rw [Tup.bins_cons, Tup.bins_cons]
      refine SameOutcome.bind (h1.bin i) fun o o' ho => ?_
      cases o <;> cases o' <;> simp only [SameOption] at ho
      · trivial
      refine SameOutcome.bind (ih h2 is) fun p p' hp => ?_
      cases p <;> cases p' <;> simp only [SameOption] at hp
      · trivial
      exact ⟨ho, hp⟩

/-- C53: tuples of two or more axes whose axes have the property -/
theorem C53_tuple {t₀ t₁ : AxTy} {ts : List AxTy} [TupPEq (t₀ :: t₁ :: ts)] {rs : TupRel (t₀ :: t₁ :: ts)}
    {a b : AxesTuple t₀ t₁ ts} (hts : TupPEq.peq a.axes b.axes = true → TupSame a.axes b.axes rs) (h : PEq.peq a b = true) :
    SameAxis a b (SameAll rs) := by
  have h' : (TupPEq.peq a.axes b.axes && decide (a.shape = b.shape)) = true := h
  rw [Bool.and_eq_true, decide_eq_true_eq] at h'
  have s := hts h'.1
  refine ⟨?_, fun c => ?_, fun i => ?_⟩
  · show a.numBins = b.numBins
    unfold AxesTuple.numBins
    rw [s.numBinsList]
  · show a.index c = b.index c
    unfold AxesTuple.index
    rw [s.indices, h'.2]
  · show SameOutcome _ (a.bin i) (b.bin i)
    unfold AxesTuple.bin
    rw [s.numBinsList]
    refine SameOutcome.bind (r := fun x y => x = y) (SameOutcome.self fun _ => rfl) ?_
    rintro ns _ rfl
    refine SameOutcome.bind (r := fun x y => x = y) (SameOutcome.self fun _ => rfl) ?_
    rintro is _ rfl
    exact s.bins is

end
/-! ## Histograms -/

section
variable [Cfg] {A V : Type} [Axis A] [PEq A] {same : Axis.Interval A → Axis.Interval A → Prop}

/-- C53: equal dense histograms have equal values at every coordinate, and list the same bins with equal values. -/
theorem C53_equal_dense [PEq V] {h h' : VecHistogram A V} {n : Nat} (ok : h.Ok n) (ok' : h'.Ok n)
    (hA : PEq.peq h.axes h'.axes = true → SameAxis h.axes h'.axes same) (heq : h.beq h' = true) :
    (∀ c, SameOutcome (SameOption fun v w => PEq.peq v w = true) (h.value c) (h'.value c)) ∧
    ∃ items items', h.iter = .ok items ∧ h'.iter = .ok items' ∧
      List.Forall₂ (fun x y => x.index = y.index ∧ same x.bin y.bin ∧ PEq.peq x.value y.value = true) items items' := by
  obtain ⟨hax, hv⟩ := (C45_dense ok ok').1 heq
  have s := hA hax
  constructor
  · intro c
    obtain ⟨a1, a2, a3, -⟩ := C26_value ok c
    obtain ⟨b1, b2, b3, -⟩ := C26_value ok' c
    have hi := s.index c
    cases hidx : Axis.index h.axes c with
    | error p =>
      rw [(a3 p).1 hidx, (b3 p).1 (hi ▸ hidx)]; rfl
    | ok o =>
      cases o with
      | none => rw [a2.1 hidx, b2.1 (hi ▸ hidx)]; trivial
      | some i =>
        obtain ⟨v, hv1, hv2⟩ := a1 i hidx
        obtain ⟨w, hw1, hw2⟩ := b1 i (hi ▸ hidx)
        obtain ⟨v', w', e1, e2, e3⟩ := hv i (ok.lawful.index_lt _ _ hidx)
        rw [hv1] at e1; rw [hw1] at e2
        cases e1; cases e2
        rw [hv2, hw2]
        exact e3
  · obtain ⟨items, i1, i2, i3, -⟩ := C38_iter ok
    obtain ⟨items', j1, j2, j3, -⟩ := C38_iter ok'
    refine ⟨items, items', i1, j1, ?_⟩
    rw [List.forall₂_iff_get]
    refine ⟨by rw [i2, j2], fun k hk hk' => ?_⟩
    rw [i2] at hk
    obtain ⟨b, v, e1, e2, e3⟩ := i3 k hk
    obtain ⟨b', v', e1', e2', e3'⟩ := j3 k hk
    obtain ⟨v1, w1, f1, f2, f3⟩ := hv k hk
    rw [e3] at f1; rw [e3'] at f2
    cases f1; cases f2
    rw [List.getElem?_eq_some_iff] at e1 e1'
    obtain ⟨_, e1⟩ := e1
    obtain ⟨_, e1'⟩ := e1'
    rw [List.get_eq_getElem, List.get_eq_getElem, e1, e1']
    have := s.bin k
    rw [e2, e2'] at this
    exact ⟨rfl, this, f3⟩

/-- C53: equal sparse histograms have equal values at every coordinate. -/
theorem C53_equal_sparse [PEq V] {h h' : HashHistogram A V} {n n' : Nat} (ok : h.Ok n)
    (ok' : h'.Ok n') (hA : PEq.peq h.axes h'.axes = true → SameAxis h.axes h'.axes same) (heq : h.beq h' = true) (c : Axis.Coordinate A) :
    SameOutcome (SameOption fun v w => PEq.peq v w = true) (h.value c) (h'.value c) := by
  obtain ⟨hax, hv⟩ := (C45_sparse ok ok').1 heq
  have s := hA hax
  unfold HashHistogram.value
  refine SameOutcome.bind (r := fun x y => x = y) (by rw [s.index c]; exact SameOutcome.self fun _ => rfl) ?_
  rintro o _ rfl
  cases o with
  | none => trivial
  | some i =>
    have := hv i
    show SameOption _ (h.valueAtIndex i) (h'.valueAtIndex i)
    cases h1 : h.valueAtIndex i <;> cases h2 : h'.valueAtIndex i <;> rw [h1, h2] at this <;> exact this

/-- C53: arithmetic of two dense histograms is arithmetic of the values at each coordinate: where both operands have the coordinate in a bin, the
result's value is the operation applied to their values; the operands and the result have a bin for the same coordinates. -/
theorem C53_operation_dense [ROps V] (o : Op) {l r m : VecHistogram A V} {n : Nat} (hl : l.Ok n)
    (hr : r.Ok n) (hA : PEq.peq l.axes r.axes = true → SameAxis l.axes r.axes same) (hop : l.opBorrow o r = .ok (.ok m)) (c : Axis.Coordinate A) :
    (∀ x, l.value c = .ok (some x) → ∃ y z, r.value c = .ok (some y) ∧ ROps.op o x y = .ok z ∧ m.value c = .ok (some z)) ∧
    (l.value c = .ok none ↔ r.value c = .ok none) ∧ (l.value c = .ok none ↔ m.value c = .ok none) := by
  have hax : PEq.peq l.axes r.axes = true := by
    cases h : PEq.peq l.axes r.axes
    · rw [(C34_dense o l r).1.2 h] at hop; cases hop
    · rfl
  have s := hA hax
  rcases C33_binwise_dense o hl hr hax with ⟨m', hm', ok, hmax, hval⟩ | ⟨p, i, x, y, hp, -⟩
  · rw [hop] at hm'
    obtain rfl : m = m' := by simpa using hm'
    obtain ⟨a1, a2, a3, -⟩ := C26_value hl c
    obtain ⟨b1, b2, b3, -⟩ := C26_value hr c
    obtain ⟨d1, d2, d3, -⟩ := C26_value ok c
    have hi := s.index c
    refine ⟨?_, by rw [← a2, ← b2, hi], by rw [← a2, ← d2, hmax]⟩
    intro x hx
    cases hidx : Axis.index l.axes c with
    | error p => rw [(a3 p).1 hidx] at hx; cases hx
    | ok o' =>
      cases o' with
      | none => rw [a2.1 hidx] at hx; cases hx
      | some i =>
        obtain ⟨v, hv1, hv2⟩ := a1 i hidx
        obtain ⟨w, hw1, hw2⟩ := b1 i (hi ▸ hidx)
        obtain ⟨u, hu1, hu2⟩ := d1 i (by rw [hmax]; exact hidx)
        rw [hv2] at hx
        cases hx
        obtain ⟨x', y', z', e1, e2, e3, e4⟩ := hval i (hl.lawful.index_lt _ _ hidx)
        rw [hv1] at e1; rw [hw1] at e2; rw [hu1] at e4
        cases e1; cases e2; cases e4
        exact ⟨w, u, hw2, e3, hu2⟩
  · rw [hop] at hp; cases hp

/-- C53: arithmetic of two sparse histograms is arithmetic of the values at each coordinate, with the default for a missing value. -/
theorem C53_operation_sparse [ROps V] [RDefault V] (o : Op) {l r m : HashHistogram A V} {n : Nat}
    (hl : l.Ok n) (hr : r.Ok n) (hA : PEq.peq l.axes r.axes = true → SameAxis l.axes r.axes same) (ko : HashHistogram.KeyOrder l r) (hop : l.opBorrow o r ko = .ok (.ok m)) (c : Axis.Coordinate A) :
    (∀ x y, l.value c = .ok x → r.value c = .ok y → ∃ z, m.value c = .ok z ∧ HashHistogram.merged o x y = .ok z) ∧
    (∀ p, l.value c = .error p ↔ r.value c = .error p) := by
  have hax : PEq.peq l.axes r.axes = true := by
    cases h' : PEq.peq l.axes r.axes with
    | true => rfl
    | false => simp [HashHistogram.opBorrow, h', pure, Except.pure] at hop
  have s := hA hax
  obtain ⟨-, hmax, hval⟩ := C33_binwise_sparse o hl hr ko hop
  unfold HashHistogram.value
  rw [hmax, ← s.index c]
  cases hidx : Axis.index l.axes c with
  | error p => exact ⟨(fun x y hx => by cases hx), fun q => Iff.rfl⟩
  | ok i =>
    cases i with
    | none =>
      refine ⟨?_, fun q => Iff.rfl⟩
      intro x y hx hy
      cases hx; cases hy
      exact ⟨none, rfl, rfl⟩
    | some i =>
      refine ⟨?_, fun q => ?_⟩
      · intro x y hx hy
        cases hx; cases hy
        exact ⟨_, rfl, hval i⟩
      · constructor <;> intro h <;> cases h
end

/-! ## Concrete cases -/

section
attribute [local instance] dbg64

/-- two equal axes that are not identical: one starts at `0.0`, the other at `-0.0` -/
example : ∃ a b : Uniform F64, Uniform.new 4 (f64 0) (f64 1) = .ok (.ok a) ∧ Uniform.new 4 (Flt.neg (f64 0)) (f64 1) = .ok (.ok b) ∧
    a ≠ b ∧ PEq.peq a b = true ∧ a.index (f64 0.3) = .ok (some 2) := by
  exact ⟨⟨4, f64 0, f64 1, f64 0.25⟩, ⟨4, Flt.neg (f64 0), f64 1, f64 0.25⟩, by decide +kernel, by decide +kernel, by decide +kernel,
    by decide +kernel, by decide +kernel⟩

/-- C53 for a two-dimensional axis -/
example {a b : AxesTuple ⟨Uniform F64, inferInstance⟩ ⟨UniformNoFlow F64, inferInstance⟩ []} (h : PEq.peq a b = true) (c : Coords _) :
    a.index c = b.index c := by
  refine (C53_tuple (rs := ((BinInterval.Same (T := F64), BinInterval.Same (T := F64), ()) :
    TupRel [⟨Uniform F64, inferInstance⟩, ⟨UniformNoFlow F64, inferInstance⟩])) ?_ h).index c
  refine C53_tuple_cons (fun h => C53_uniform (T := F64) h) ?_
  refine C53_tuple_cons (fun h => C53_uniform_noflow (T := F64) h) ?_
  intro _
  trivial

/-- C53 for equal histograms over category axes -/
example {V : Type} [PEq V] {vs vs' : List String} {h h' : VecHistogram (CategoryNoFlow String) V} {n : Nat} (ok : h.Ok n) (ok' : h'.Ok n)
    (e : h.axes = CategoryNoFlow.new vs) (e' : h'.axes = CategoryNoFlow.new vs') (heq : h.beq h' = true) (c : String) :
    SameOutcome (SameOption fun v w => PEq.peq v w = true) (h.value c) (h'.value c) :=
  (C53_equal_dense ok ok' (by rw [e, e']; exact C53_category.2) heq).1 c
end
end NdHist
