import Verif.Examples.Profile
import Verif.Props.ProfileIter
/-!
# Concrete cases of C63: iterators, loops that break, parallel iteration and text in 64-bit debug and release builds
-/
namespace NdHist.Examples
open NdHist

/-! iterators; `pLow` overflows in the debug build for coordinates, not for bins; the second axis of `u8` overflows for its bins -/
/-- `Uniform::with_step_size(2, 100, 100)` in the release build would wrap; as a value: bins computed with `high - low` that does not fit -/
def pBad : Uniform U8 := ⟨2, .lit 100, .lit 44, .lit 100⟩
example : @Axis.start D _ (@Uniform.instAxis I32 D _) pAx = .ok (0, 5) := by decide +kernel
example : @Axis.start R _ (@Uniform.instAxis I32 R _) pAx = .ok (0, 5) :=
  Builds.release_ok (C63_axis_start (C63_uniform i32B) rfl) (by decide +kernel : @Axis.start D _ (@Uniform.instAxis I32 D _) pAx = .ok (0, 5))
abbrev bD : LIter (Nat × Nat) (BinInterval I32) := @Axis.binsL D _ (@Uniform.instAxis I32 D _) pAx
abbrev bR : LIter (Nat × Nat) (BinInterval I32) := @Axis.binsL R _ (@Uniform.instAxis I32 R _) pAx
abbrev badD : LIter (Nat × Nat) (BinInterval U8) := @Axis.binsL D _ (@Uniform.instAxis U8 D _) pBad
abbrev badR : LIter (Nat × Nat) (BinInterval U8) := @Axis.binsL R _ (@Uniform.instAxis U8 R _) pBad
theorem bD_next : bD.next (2, 5) = (.ok (some (.new (.lit 2) (.lit 4))), (3, 5)) := by decide +kernel
example : bR.next (2, 5) = (.ok (some (.new (.lit 2) (.lit 4))), (3, 5)) := by
  rcases ((C63_bins_next (C63_uniform i32B) (a := pAx) rfl).1 (2, 5)).cases with ⟨s₁, h⟩ | ⟨p, s₁, h, -⟩ | ⟨s₁, h, -⟩ | ⟨x, y, s₁, h, h', hxy⟩
  · cases bD_next.symm.trans h
  · cases bD_next.symm.trans h
  · cases bD_next.symm.trans h
  · cases bD_next.symm.trans h; exact h'.trans (by rw [← eq_of_heq hxy])
/-- where the builds differ -/
example : (badD.next (1, 4)).1 = .error .overflow ∧ (badR.next (1, 4)).1 = .ok (some (.new (.lit 100) (.lit 200))) := by decide +kernel
example : (@Axis.iterL D _ (@Uniform.instAxis I32 D _) pAx).Same (fun x y => x.1 = y.1 ∧ HEq x.2 y.2) (@Axis.iterL R _ (@Uniform.instAxis I32 R _) pAx) :=
  C63_axis_iter_next (C63_uniform i32B) rfl
example : (@VecHistogram.iterL D AD U8 _ hD).Same pT.item (@VecHistogram.iterL R AR U8 _ hR) := C63_vec_iter_next pT_agree hDR
example : (@VecHistogram.iterMutL D AD U8 _ hD).Same pT.item (@VecHistogram.iterMutL R AR U8 _ hR) := C63_vec_iter_mut_next pT_agree hDR
example : (@HashHistogram.iterL D AD U8 _ gD).Same pT.item (@HashHistogram.iterL R AR U8 _ gR) := C63_hash_iter_next pT_agree gDR
example : (@HashHistogram.iterMutL D AD U8 _ gD).Same pT.item (@HashHistogram.iterMutL R AR U8 _ gR) := C63_hash_iter_mut_next pT_agree gDR
/-- three of five bins -/
example : List.Forall₂ (Builds (BothOption fun x y => HEq x y)) (bD.pull 3 (0, 5)).1 (bR.pull 3 (0, 5)).1 :=
  (C63_pull (C63_bins_next (C63_uniform i32B) (a := pAx) rfl) 3 (0, 5) (by decide +kernel : .error .overflow ∉ (bD.pull 3 (0, 5)).1)).1
example : (LIter.list (α := Nat)).forLoop (fun (i : Nat) (t : Nat) => (t + i, if i = 2 then .stop else .next)) 9 [1, 2, 3] 0 = (3, none) := by decide
example : BuildsUpd Eq (LIter.list.forLoop (fun (i : Nat) (t : Nat) => (t + i, if i = 2 then Flow.stop else .next)) 9 [1, 2, 3] 0)
    (LIter.list.forLoop (fun (i : Nat) (t : Nat) => (t + i, if i = 2 then Flow.stop else .next)) 9 [1, 2, 3] 0) :=
  C63_for_loop (P := Eq) LIter.Same.rfl (by rintro x _ rfl t _ rfl; exact Or.inr ⟨rfl, rfl⟩) 9 [1, 2, 3] rfl

/-! loops that add one and stop at a value greater than 5 -/
def upTo5 (c : Cfg) (v : U8) : U8 × Flow :=
  match @addAssign U8 c (@MInt.instRNum .u8 c) (.lit 1) v with
  | (w, none) => (w, if 5 < v.val then .stop else .next)
  | (w, some p) => (w, .panic p)
theorem upTo5_builds (v : U8) : BodyBuilds Eq (upTo5 D v) (upTo5 R v) := by
  have h := C63_fill_with_number u8B (.lit 1) v
  unfold upTo5
  revert h
  rw [show (@instFillWith U8 D _).fillWith (.lit 1) v = @addAssign U8 D _ (.lit 1) v from rfl, show (@instFillWith U8 R _).fillWith (.lit 1) v = @addAssign U8 R _ (.lit 1) v from rfl]
  rcases @addAssign U8 D _ (.lit 1) v with ⟨w, _ | p⟩ <;> rcases @addAssign U8 R _ (.lit 1) v with ⟨w', _ | p'⟩
  · rintro (h | ⟨h, -⟩)
    · cases h
    · exact Or.inr ⟨h, rfl⟩
  · rintro (h | ⟨-, h⟩) <;> cases h
  · rintro (h | ⟨-, h⟩)
    · cases h; exact Or.inl rfl
    · cases h
  · rintro (h | ⟨h, h'⟩)
    · cases h; exact Or.inl rfl
    · cases h'; exact Or.inr ⟨h, rfl⟩
def pvsAfter : List U8 := [.lit 1, .lit 2, .lit 3, .lit 4, .lit 5, .lit 6, .lit 7, .lit 254, .lit 8, .lit 9]
example : (hR.loopValuesMut 100 (upTo5 R)).1.values = pvsAfter := by
  rcases C63_vec_loop_values_mut upTo5_builds hDR 100 with h | ⟨⟨-, h⟩, -⟩
  · exact absurd h (by decide +kernel)
  · exact h.symm.trans (by decide +kernel)
example : (@VecHistogram.loopMut R AR U8 _ hR 100 fun _ _ => upTo5 R).1.values = pvsAfter := by
  rcases C63_vec_loop_mut pT_agree (f := fun _ _ => upTo5 D) (g := fun _ _ => upTo5 R) (fun _ _ _ _ => upTo5_builds) hDR 100 with h | ⟨⟨-, h⟩, -⟩
  · exact absurd h (by decide +kernel)
  · exact h.symm.trans (by decide +kernel)
example : ((gR.loopValuesMut goR 100 (upTo5 R)).1.values).get 7 = some (.lit 255) := by
  rcases C63_hash_loop_values_mut upTo5_builds gDR goD goR rfl 100 with h | ⟨⟨-, h⟩, -⟩
  · exact absurd h (by decide +kernel)
  · rw [← h]; decide +kernel
example : BuildsUpd pT.hash (@HashHistogram.loopMut D AD U8 _ gD goD 100 fun _ _ => upTo5 D) (@HashHistogram.loopMut R AR U8 _ gR goR 100 fun _ _ => upTo5 R) :=
  C63_hash_loop_mut pT_agree (fun _ _ _ _ => upTo5_builds) gDR goD goR rfl 100

/-! parallel: add two in two steps, bins 7 (254) and 9 interleaved; in the debug build bin 7 overflows in its second step -/
example : List.Forall₂ (Builds pT.item) (@VecHistogram.parIter AD U8 D _ hD) (@VecHistogram.parIter AR U8 R _ hR) := C63_vec_par_iter pT_agree hDR
example : List.Forall₂ (Builds pT.item) (@HashHistogram.parIter AD U8 D _ gD goD) (@HashHistogram.parIter AR U8 R _ gR goR) := C63_hash_par_iter pT_agree gDR goD goR rfl
def two (c : Cfg) : List (Upd U8) := [@addAssign U8 c (@MInt.instRNum .u8 c) (.lit 1), @addAssign U8 c (@MInt.instRNum .u8 c) (.lit 1)]
theorem two_builds : List.Forall₂ UpdBuilds (two D) (two R) := .cons (C63_fill_with_number u8B (.lit 1)) (.cons (C63_fill_with_number u8B (.lit 1)) .nil)
example : (@VecHistogram.parIterMut AR U8 R _ hR (fun _ _ => two R) [7, 9, 9, 7]).1.values[9]? = some (.lit 11) := by
  obtain ⟨-, h⟩ := C63_vec_par_iter_mut pT_agree (f := fun _ _ => two D) (g := fun _ _ => two R) (fun _ _ _ _ => two_builds) hDR [7, 9, 9, 7] _ _ rfl rfl
  have h9 := (List.forall₂_iff_get.1 h).2 9 (by decide +kernel) (by decide +kernel)
  rcases h9 with h9 | ⟨h9, -⟩
  · exact absurd h9 (by decide +kernel)
  · decide +kernel
example : (@VecHistogram.parIterMut AD U8 D _ hD (fun _ _ => two D) [7, 9, 9, 7]).2[7]? = some (some .overflow) ∧
    (@VecHistogram.parIterMut AR U8 R _ hR (fun _ _ => two R) [7, 9, 9, 7]).1.values[7]? = some (.lit 0) := by decide +kernel
example : List.Forall₂ (BuildsUpd Eq) ((hD.parValuesMut (fun _ => two D) [7, 9, 9, 7]).1.values.zip (hD.parValuesMut (fun _ => two D) [7, 9, 9, 7]).2)
    ((hR.parValuesMut (fun _ => two R) [7, 9, 9, 7]).1.values.zip (hR.parValuesMut (fun _ => two R) [7, 9, 9, 7]).2) :=
  (C63_vec_par_values_mut (fun _ => two_builds) hDR [7, 9, 9, 7] _ _ rfl rfl).2
example : EntriesBuild ((@HashHistogram.parIterMut AD U8 D _ gD (fun _ _ => two D) [1, 0]).1.values, (@HashHistogram.parIterMut AD U8 D _ gD (fun _ _ => two D) [1, 0]).2)
    ((@HashHistogram.parIterMut AR U8 R _ gR (fun _ _ => two R) [1, 0]).1.values, (@HashHistogram.parIterMut AR U8 R _ gR (fun _ _ => two R) [1, 0]).2) :=
  (C63_hash_par_iter_mut pT_agree (fun _ _ _ _ => two_builds) gDR [1, 0] _ _ rfl rfl).2
example : EntriesBuild ((gD.parValuesMut (two D) [1, 0]).1.values, (gD.parValuesMut (two D) [1, 0]).2) ((gR.parValuesMut (two R) [1, 0]).1.values, (gR.parValuesMut (two R) [1, 0]).2) :=
  (C63_hash_par_values_mut two_builds gDR [1, 0] _ _ rfl rfl).2
/-- the sum of 1, 2 and 3 in two parts -/
example : (Split.join (.part [.lit 1, .lit 2]) (.part [.lit 3]) : Split U8).reduce (fun x => .ok x) (@RNum.add U8 R _) (.lit 0) = .ok (.lit 6) :=
  Builds.release_ok (C63_reduce (f := fun x => .ok x) (fun x => Builds.ok rfl) u8B.add (.lit 0) _) (by decide +kernel)

/-! text -/
section
local instance prDispF : Disp F64 := ⟨fun _ _ => "x"⟩
local instance prDispI {τ : IntTy} : Disp (MInt τ) := ⟨fun _ x => if x.val = 0 then "0" else "n"⟩
local instance prDispS : Disp String := ⟨fun _ s => s⟩
abbrev pTextD : Disp (@Axis.Interval AD D (@AxesTuple.instAxis D tD0 tD1 [])) := ⟨fun p (x : BinInterval I32 × SingleValueBinInterval String × Unit) => Disp.fmt p x.1 ++ Disp.fmt p x.2.1⟩
abbrev pTextR : Disp (@Axis.Interval AR R (@AxesTuple.instAxis R tR0 tR1 [])) := ⟨fun p (x : BinInterval I32 × SingleValueBinInterval String × Unit) => Disp.fmt p x.1 ++ Disp.fmt p x.2.1⟩
theorem pTexts : pT.Texts pTextD pTextR := by
  rintro k ⟨x, x', ⟨⟩⟩ ⟨y, y', ⟨⟩⟩ ⟨h, h', -⟩
  cases eq_of_heq h; cases eq_of_heq h'; rfl
example (into : U8 → F64) : Builds Eq (@VecHistogram.display AD U8 D _ pTextD _ into (fun _ => true) none hD)
    (@VecHistogram.display AR U8 R _ pTextR _ into (fun _ => true) none hR) :=
  C63_vec_display pT_agree pTexts into (fun _ => true) none hDR
example (into : U8 → F64) : Builds Eq (@HashHistogram.display AD U8 D _ _ into pD pvs) (@HashHistogram.display AR U8 R _ _ into pR pvs) :=
  C63_hash_display pT_agree into pDR pvs
example : @UniformNoFlow.display I32 R _ _ ⟨pAx⟩ = .ok "Axis{# bins=3, range=[0, n), class=UniformNoFlow}" :=
  Builds.release_ok (C63_display_uniform (b := 64) (hb := by decide) (d := @MInt.instRNum .i32 D) (r := @MInt.instRNum .i32 R) ⟨pAx⟩ ⟨⟨pAx⟩⟩).1 (by decide +kernel)
example : @Variable.display I32 R _ (@RNum.toPOrd _ D _) ⟨[.lit 0, .lit 5, .lit 7]⟩ = .ok "Axis{# bins=2, range=[0, n), class=Variable}" :=
  Builds.release_ok (@C63_display_variable 64 (by decide) I32 _ (@RNum.toPOrd _ D _) ⟨[.lit 0, .lit 5, .lit 7]⟩ ⟨⟨[]⟩⟩ ⟨⟨⟨[]⟩⟩⟩).1 (by decide +kernel)
/-- an axis without edges (only by deserialisation): the debug build panics with overflow, the release build later -/
example : @Variable.display I32 D _ (@RNum.toPOrd _ D _) ⟨[]⟩ = .error .overflow ∧ @Variable.display I32 R _ (@RNum.toPOrd _ D _) ⟨[]⟩ = .error .expectNone := by decide +kernel
example : @CategoryNoFlow.display String _ R _ pCat = .ok "{{a}, {b}, {overflow}}" :=
  Builds.release_ok (C63_display_category (b := 64) (hb := by decide) pCat.axis pCat).2 (by decide +kernel)
end
end NdHist.Examples
