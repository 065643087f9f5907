import Verif.SpecDebug
import Verif.Props.FloatTextExp
/-!
# C96: debug texts identify objects
-/
namespace NdHist

/-- from `s` or `t`, followed by the end of a number, it is known which it is; then `R` holds -/
def Cut (s t : List Char) (R : Prop) : Prop := ∀ r r', Ends r → Ends r' → s ++ r = t ++ r' → R ∧ r = r'

theorem Cut.mono {s t : List Char} {R R' : Prop} (h : Cut s t R) (hR : R → R') : Cut s t R' := fun r r' a b e => ⟨hR (h r r' a b e).1, (h r r' a b e).2⟩

theorem Cut.const (s : List Char) : Cut s s True := fun _ _ _ _ e => ⟨trivial, List.append_cancel_left e⟩

theorem ends_nil : Ends [] := by intro c h; cases h

theorem ends_cons {c : Char} (h : plainChar c = false) (r : List Char) : Ends (c :: r) := by
  intro d hd; cases hd; exact h

/-- numbers -/
theorem cut_plain {s t : List Char} (hs : ∀ c ∈ s, plainChar c = true) (ht : ∀ c ∈ t, plainChar c = true) : Cut s t (s = t) := by
  intro r r' hr hr' e
  have tw : ∀ {s r : List Char}, (∀ c ∈ s, plainChar c = true) → Ends r → (s ++ r).takeWhile plainChar = s := by
    intro s r hs hr
    rw [List.takeWhile_append_of_pos hs]
    cases r with
    | nil => simp
    | cons c r => rw [List.takeWhile_cons, hr c rfl]; simp
  have h1 := tw hs hr
  rw [e, tw ht hr'] at h1
  subst h1
  exact ⟨rfl, List.append_cancel_left e⟩

theorem ends_sep (st : DSty) (r : List Char) : Ends (st.sep ++ r) := by
  cases st <;> exact ends_cons (by decide) _

theorem ends_last (st : DSty) {pad : List Char} (hp : pad = [] ∨ pad = [' '] ∨ pad = [',']) {close : Char} (hc : plainChar close = false) (r : List Char) : Ends (st.last pad ++ close :: r) := by
  cases st with
  | none => rcases hp with rfl | rfl | rfl
            · exact ends_cons hc _
            · exact ends_cons (by decide) _
            · exact ends_cons (by decide) _
  | some n => exact ends_cons (by decide) _

/-- items of which there are as many on both sides -/
theorem cut_tail (st : DSty) {pad : List Char} (hp : pad = [] ∨ pad = [' '] ∨ pad = [',']) {close : Char} (hc : plainChar close = false) :
    ∀ (l : List (List Char × List Char × Prop)), (∀ x ∈ l, Cut x.1 x.2.1 x.2.2) → ∀ r r',
      (l.map (·.1)).flatMap (fun y => st.sep ++ y) ++ (st.last pad ++ close :: r) = (l.map (·.2.1)).flatMap (fun y => st.sep ++ y) ++ (st.last pad ++ close :: r') →
      (∀ x ∈ l, x.2.2) ∧ r = r' := by
  intro l
  induction l with
  | nil =>
    intro _ r r' e
    simp only [List.map_nil, List.flatMap_nil, List.nil_append] at e
    have := List.append_cancel_left e
    injection this with _ h
    exact ⟨by simp, h⟩
  | cons x l ih =>
    intro h r r' e
    simp only [List.map_cons, List.flatMap_cons, List.append_assoc] at e
    have e := List.append_cancel_left e
    have hE : ∀ (g : List (List Char × List Char × Prop)) (f : (List Char × List Char × Prop) → List Char) (r : List Char),
        Ends ((g.map f).flatMap (fun y => st.sep ++ y) ++ (st.last pad ++ close :: r)) := by
      intro g f r
      cases g with
      | nil => exact ends_last st hp hc r
      | cons y g => simp only [List.map_cons, List.flatMap_cons, List.append_assoc]; exact ends_sep st _
    obtain ⟨h1, h2⟩ := h x (by simp) _ _ (hE l _ r) (hE l _ r') e
    obtain ⟨h3, h4⟩ := ih (fun y hy => h y (List.mem_cons_of_mem _ hy)) r r' h2
    refine ⟨?_, h4⟩
    intro y hy
    rcases List.mem_cons.1 hy with rfl | hy
    · exact h1
    · exact h3 y hy

theorem cut_items (st : DSty) {pad0 pad : List Char} (hp : pad = [] ∨ pad = [' '] ∨ pad = [',']) {close : Char} (hc : plainChar close = false)
    (l : List (List Char × List Char × Prop)) (h : ∀ x ∈ l, Cut x.1 x.2.1 x.2.2) (r r' : List Char)
    (e : dbgItems st pad0 pad (l.map (·.1)) ++ close :: r = dbgItems st pad0 pad (l.map (·.2.1)) ++ close :: r') : (∀ x ∈ l, x.2.2) ∧ r = r' := by
  cases l with
  | nil => simp only [List.map_nil, dbgItems, List.nil_append] at e; injection e with _ h'; exact ⟨by simp, h'⟩
  | cons x l =>
    simp only [List.map_cons, dbgItems, List.append_assoc] at e
    have e := List.append_cancel_left e
    have e' : st.sep ++ (x.1 ++ ((l.map (·.1)).flatMap (fun y => st.sep ++ y) ++ (st.last pad ++ close :: r))) =
        st.sep ++ (x.2.1 ++ ((l.map (·.2.1)).flatMap (fun y => st.sep ++ y) ++ (st.last pad ++ close :: r'))) := congrArg _ e
    exact cut_tail st hp hc (x :: l) h r r' (by simpa only [List.map_cons, List.flatMap_cons, List.append_assoc] using e')

theorem Cut.entry {k s t : List Char} {R : Prop} (h : Cut s t R) : Cut (dbgEntry k s) (dbgEntry k t) R := by
  intro r r' hr hr' e
  unfold dbgEntry at e
  simp only [List.append_assoc, List.cons_append] at e
  have e := List.append_cancel_left e
  injection e with _ e
  injection e with _ e
  exact h r r' hr hr' e

theorem cut_struct (st : DSty) (name : String) (l : List (String × List Char × List Char × Prop)) (h : ∀ x ∈ l, Cut x.2.1 x.2.2.1 x.2.2.2) :
    Cut (dbgStruct st name (l.map fun x => (x.1, x.2.1))) (dbgStruct st name (l.map fun x => (x.1, x.2.2.1))) (∀ x ∈ l, x.2.2.2) := by
  intro r r' hr hr' e
  unfold dbgStruct at e
  simp only [List.append_assoc, List.cons_append, List.nil_append, List.map_map] at e
  have e := List.append_cancel_left e
  injection e with _ e
  injection e with _ e
  obtain ⟨h1, h2⟩ := cut_items st (pad0 := [' ']) (.inr (.inl rfl)) (close := '}') (by decide)
    (l.map fun x => (dbgEntry x.1.toList x.2.1, dbgEntry x.1.toList x.2.2.1, x.2.2.2))
    (by intro y hy; obtain ⟨x, hx, rfl⟩ := List.mem_map.1 hy; exact (h x hx).entry) r r' (by simpa only [List.map_map, Function.comp_def] using e)
  exact ⟨fun x hx => h1 (dbgEntry x.1.toList x.2.1, dbgEntry x.1.toList x.2.2.1, x.2.2.2) (List.mem_map.2 ⟨x, hx, rfl⟩), h2⟩

theorem cut_tuple (st : DSty) (l : List (List Char × List Char × Prop)) (h : ∀ x ∈ l, Cut x.1 x.2.1 x.2.2) :
    Cut (dbgTuple st (l.map (·.1))) (dbgTuple st (l.map (·.2.1))) (∀ x ∈ l, x.2.2) := by
  intro r r' hr hr' e
  unfold dbgTuple at e
  simp only [List.append_assoc, List.cons_append, List.nil_append, List.length_map] at e
  injection e with _ e
  exact cut_items st (by split <;> simp) (close := ')') (by decide) l h r r' e

/-- items of which it is not known how many there are -/
theorem cut_many_tail {α : Type} {P : α → List Char → Prop} {R : α → α → Prop} (hcut : ∀ {x y s t}, P x s → P y t → Cut s t (R x y)) (st : DSty) {close : Char} (hc : plainChar close = false)
    (hc1 : close ≠ ',') (hc2 : close ≠ ' ') :
    ∀ {xs ys ss ts}, List.Forall₂ P xs ss → List.Forall₂ P ys ts → ∀ r r',
      ss.flatMap (fun y => st.sep ++ y) ++ (st.last [] ++ close :: r) = ts.flatMap (fun y => st.sep ++ y) ++ (st.last [] ++ close :: r') → List.Forall₂ R xs ys ∧ r = r' := by
  have hne : ∀ r u, st.last [] ++ close :: r ≠ st.sep ++ u := by
    intro r u e
    cases st with
    | none => simp only [DSty.last, DSty.sep, List.nil_append, List.cons_append] at e; injection e with e _; exact hc1 e
    | some n =>
      simp only [DSty.last, DSty.sep, List.cons_append] at e
      injection e with _ e
      injection e with _ e
      have : DSty.indent (n + 1) = DSty.indent n ++ ' ' :: [' ', ' ', ' '] := by
        unfold DSty.indent
        rw [show 4 * (n + 1) = 4 * n + 4 by ring, List.replicate_add]
        rfl
      rw [this, List.append_assoc] at e
      have e := List.append_cancel_left e
      injection e with e _
      exact hc2 e
  have hE : ∀ (ss : List (List Char)) (r : List Char), Ends (ss.flatMap (fun y => st.sep ++ y) ++ (st.last [] ++ close :: r)) := by
    intro ss r
    cases ss with
    | nil => exact ends_last st (.inl rfl) hc r
    | cons y g => simp only [List.flatMap_cons, List.append_assoc]; exact ends_sep st _
  intro xs ys ss ts h h'
  induction h generalizing ys ts with
  | nil =>
    intro r r' e
    cases h' with
    | nil =>
      simp only [List.flatMap_nil, List.nil_append] at e
      have := List.append_cancel_left e
      injection this with _ h
      exact ⟨.nil, h⟩
    | cons hx hl =>
      simp only [List.flatMap_nil, List.nil_append, List.flatMap_cons, List.append_assoc] at e
      exact absurd e (hne _ _)
  | cons hx hl ih =>
    intro r r' e
    cases h' with
    | nil =>
      simp only [List.flatMap_nil, List.nil_append, List.flatMap_cons, List.append_assoc] at e
      exact absurd e.symm (hne _ _)
    | cons hy hl' =>
      simp only [List.flatMap_cons, List.append_assoc] at e
      have e := List.append_cancel_left e
      obtain ⟨h1, h2⟩ := hcut hx hy _ _ (hE _ r) (hE _ r') e
      obtain ⟨h3, h4⟩ := ih hl' r r' h2
      exact ⟨.cons h1 h3, h4⟩

theorem cut_many {α : Type} {P : α → List Char → Prop} {R : α → α → Prop} (hcut : ∀ {x y s t}, P x s → P y t → Cut s t (R x y)) (st : DSty) {close : Char} (hc : plainChar close = false)
    (hc1 : close ≠ ',') (hc2 : close ≠ ' ') (hc3 : close ≠ '\n') (hhd : ∀ {x s}, P x s → ∃ c l, s = c :: l ∧ c ≠ close) {xs ys ss ts} (h : List.Forall₂ P xs ss) (h' : List.Forall₂ P ys ts)
    (r r' : List Char) (e : dbgItems st [] [] ss ++ close :: r = dbgItems st [] [] ts ++ close :: r') : List.Forall₂ R xs ys ∧ r = r' := by
  have hne : ∀ {x s} (_ : P x s) (u v : List Char), close :: u ≠ st.lead [] ++ (s ++ v) := by
    intro x s hx u v e
    cases st with
    | none =>
      obtain ⟨c, l, rfl, h⟩ := hhd hx
      injection e with e _
      exact h e.symm
    | some n => injection e with e _; exact hc3 e
  cases h with
  | nil =>
    cases h' with
    | nil => injection e with _ e; exact ⟨.nil, e⟩
    | cons hy hl' =>
      simp only [dbgItems, List.nil_append, List.append_assoc] at e
      exact absurd e (hne hy _ _)
  | cons hx hl =>
    cases h' with
    | nil =>
      simp only [dbgItems, List.nil_append, List.append_assoc] at e
      exact absurd e.symm (hne hx _ _)
    | cons hy hl' =>
      simp only [dbgItems, List.append_assoc] at e
      have e := List.append_cancel_left e
      have e' := congrArg (fun l => st.sep ++ l) e
      have g := List.Forall₂.cons hx hl
      have g' := List.Forall₂.cons hy hl'
      exact cut_many_tail (P := P) (R := R) hcut st hc hc1 hc2 g g' r r' (by simpa only [List.flatMap_cons, List.append_assoc] using e')

/-! ## Structs -/

/-- a field of a struct: its texts, and when two objects have the same field -/
structure DField (B : Type) where
  name : String
  text : DSty → B → List Char → Prop
  same : B → B → Prop

/-- the text of the field identifies it -/
structure DField.Law {B : Type} (f : DField B) : Prop where
  total : ∀ st b, ∃ t, f.text st b t
  resp : ∀ {st a b t}, f.same a b → f.text st a t → f.text st b t
  cut : ∀ {st a b s t}, f.text st a s → f.text st b t → Cut s t (f.same a b)

/-- a field with `Debug` -/
@[reducible] def fieldOf {A B : Type} [Dbg A] (name : String) (g : B → A) (R : A → A → Prop) : DField B := ⟨name, fun st b => Dbg.text st (g b), fun a b => R (g a) (g b)⟩

theorem fieldOf_law {A B : Type} [Dbg A] (name : String) (g : B → A) {R : A → A → Prop} (h : DebugIdentifies A R) : (fieldOf name g R).Law :=
  ⟨fun st b => h.total st (g b), fun {_ _ _ _} hr ht => h.resp hr ht, fun {_ _ _ _ _} hs ht => h.cut hs ht⟩

theorem struct_cut {B : Type} {st : DSty} {a b : B} : ∀ {fields : List (DField B)} {ss ts : List (List Char)}, (∀ f ∈ fields, f.Law) → List.Forall₂ (fun (f : DField B) t => f.text st a t) fields ss →
    List.Forall₂ (fun (f : DField B) t => f.text st b t) fields ts →
    ∃ l : List (String × List Char × List Char × Prop), l.map (fun x => (x.1, x.2.1)) = List.zipWith (fun (f : DField B) t => (f.name, t)) fields ss ∧
      l.map (fun x => (x.1, x.2.2.1)) = List.zipWith (fun (f : DField B) t => (f.name, t)) fields ts ∧ (∀ x ∈ l, Cut x.2.1 x.2.2.1 x.2.2.2) ∧ ((∀ x ∈ l, x.2.2.2) → ∀ f ∈ fields, f.same a b) := by
  intro fields
  induction fields with
  | nil => intro ss ts _ h h'; cases h; cases h'; exact ⟨[], rfl, rfl, by simp, by simp⟩
  | cons f fs ih =>
    intro ss ts hl h h'
    cases h with
    | cons hx hs =>
      cases h' with
      | cons hy ht =>
        obtain ⟨l, e1, e2, e3, e4⟩ := ih (fun g hg => hl g (List.mem_cons_of_mem _ hg)) hs ht
        refine ⟨(f.name, _, _, f.same a b) :: l, by rw [List.map_cons, e1]; rfl, by rw [List.map_cons, e2]; rfl, ?_, ?_⟩
        · intro x hx'
          rcases List.mem_cons.1 hx' with rfl | hx'
          · exact (hl f (by simp)).cut hx hy
          · exact e3 x hx'
        · intro hall g hg
          rcases List.mem_cons.1 hg with rfl | hg
          · exact hall _ (List.mem_cons_self ..)
          · exact e4 (fun x hx => hall x (List.mem_cons_of_mem _ hx)) g hg

theorem struct_total {B : Type} (st : DSty) (b : B) : ∀ {fields : List (DField B)}, (∀ f ∈ fields, f.Law) → ∃ ts, List.Forall₂ (fun (f : DField B) t => f.text st b t) fields ts := by
  intro fields
  induction fields with
  | nil => exact fun _ => ⟨[], .nil⟩
  | cons f fs ih =>
    intro hl
    obtain ⟨t, ht⟩ := (hl f (by simp)).total st b
    obtain ⟨ts, hts⟩ := ih fun g hg => hl g (List.mem_cons_of_mem _ hg)
    exact ⟨t :: ts, .cons ht hts⟩

theorem forall₂_imp_mem {α β : Type} {P Q : α → β → Prop} {l : List α} {l' : List β} (h : List.Forall₂ P l l') (hi : ∀ x ∈ l, ∀ y, P x y → Q x y) : List.Forall₂ Q l l' := by
  induction h with
  | nil => exact .nil
  | cons hx _ ih => exact .cons (hi _ (by simp) _ hx) (ih fun x hx y => hi x (List.mem_cons_of_mem _ hx) y)

theorem struct_identifies {B : Type} [Dbg B] (name : String) (fields : List (DField B)) (hl : ∀ f ∈ fields, f.Law)
    (hdef : ∀ st (b : B) s, Dbg.text st b s ↔ ∃ ts, List.Forall₂ (fun (f : DField B) t => f.text st.inner b t) fields ts ∧ s = dbgStruct st name (List.zipWith (fun (f : DField B) t => (f.name, t)) fields ts))
    (hname : (name.toList.head?.any fun c => c != ']' && c != '}') = true) : DebugIdentifies B (fun a b => ∀ f ∈ fields, f.same a b) where
  total st b := by
    obtain ⟨ts, h⟩ := struct_total st.inner b hl
    exact ⟨_, (hdef ..).2 ⟨ts, h, rfl⟩⟩
  resp := by
    intro st a b s hr h
    obtain ⟨ts, g, rfl⟩ := (hdef ..).1 h
    exact (hdef ..).2 ⟨ts, forall₂_imp_mem g fun f hf t ht => (hl f hf).resp (hr f hf) ht, rfl⟩
  head := by
    intro st a s h
    obtain ⟨ts, h, rfl⟩ := (hdef ..).1 h
    unfold dbgStruct
    cases hn : name.toList with
    | nil => rw [hn] at hname; cases hname
    | cons c l =>
      rw [hn] at hname
      simp only [List.head?_cons, Option.any_some, Bool.and_eq_true, bne_iff_ne] at hname
      exact ⟨c, _, rfl, hname⟩
  cut := by
    intro st a b s t h h'
    obtain ⟨ss, g, rfl⟩ := (hdef ..).1 h
    obtain ⟨ts, g', rfl⟩ := (hdef ..).1 h'
    obtain ⟨l, e1, e2, e3, e4⟩ := struct_cut hl g g'
    have := (cut_struct st name l e3).mono e4
    rw [e1, e2] at this
    exact this

theorem DebugIdentifies.mono {B : Type} [Dbg B] {R R' : B → B → Prop} (h : DebugIdentifies B R) (hr : ∀ a b, R a b ↔ R' a b) : DebugIdentifies B R' :=
  ⟨h.total, fun {_ _ _ _} hR => h.resp ((hr _ _).2 hR), h.head, fun {_ _ _ _ _} hs ht r r' e e' he => ⟨(hr _ _).1 (h.cut hs ht r r' e e' he).1, (h.cut hs ht r r' e e' he).2⟩⟩

/-- **C96.** If debug texts identify the objects of a type, two objects may print the same text exactly if they are the same. -/
theorem C96_same_text {B : Type} [Dbg B] {R : B → B → Prop} (h : DebugIdentifies B R) (st : DSty) (a b : B) : SameText st a b ↔ R a b := by
  constructor
  · rintro ⟨s, h1, h2⟩; exact (h.cut h1 h2 [] [] ends_nil ends_nil rfl).1
  · intro hr
    obtain ⟨s, hs⟩ := h.total st a
    exact ⟨s, hs, h.resp hr hs⟩

/-! ## Numbers and strings -/

theorem plainChar_digit {c : Char} (h : c.isDigit = true) : plainChar c = true := by
  simp [plainChar, Char.isAlphanum, h]

/-- types whose text is a number -/
theorem number_identifies {B : Type} [Dbg B] (f : B → List Char) (hdef : ∀ st (b : B) s, Dbg.text st b s ↔ s = f b) (hp : ∀ b, ∀ c ∈ f b, plainChar c = true) (hne : ∀ b, f b ≠ [])
    (hinj : ∀ a b, f a = f b → a = b) : DebugIdentifies B Eq where
  total st b := ⟨f b, (hdef ..).2 rfl⟩
  resp := by rintro st a b s rfl h; exact h
  head := by
    intro st a s h
    rw [(hdef ..).1 h]
    cases hf : f a with
    | nil => exact absurd hf (hne a)
    | cons c l =>
      have := hp a c (by rw [hf]; simp)
      refine ⟨c, l, rfl, ?_, ?_⟩ <;> rintro rfl <;> exact absurd this (by decide)
  cut := by
    intro st a b s t h h'
    rw [(hdef ..).1 h, (hdef ..).1 h']
    exact (cut_plain (hp a) (hp b)).mono (hinj a b)

theorem toDigits_inj {a b : Nat} (h : Nat.toDigits 10 a = Nat.toDigits 10 b) : a = b := by
  have := congrArg (fun l => Nat.ofDigitChars 10 l 0) h
  simpa [Nat.ofDigitChars_toDigits] using this

/-- **C96 (integers).** The debug text of a number (`usize` or any integer type) identifies it. -/
theorem C96_int {τ : IntTy} : DebugIdentifies (MInt τ) Eq ∧ DebugIdentifies Nat Eq := by
  constructor
  · refine number_identifies (fun x => intChars x.val) (fun _ _ _ => Iff.rfl) ?_ ?_ ?_
    · intro b c hc
      rcases intChars_mem hc with h | rfl
      · exact plainChar_digit h
      · decide
    · intro b h
      have := congrArg List.length h
      unfold intChars at this
      have hl := Nat.length_toDigits_pos (b := 10) (n := b.val.natAbs)
      rw [List.length_append] at this
      simp at this
    · intro a b h
      have := congrArg readInt h
      rw [readInt_intChars, readInt_intChars] at this
      exact MInt.ext this
  · refine number_identifies (fun x => Nat.toDigits 10 x) (fun _ _ _ => Iff.rfl) (fun _ _ hc => plainChar_digit (toDigits_isDigit hc)) ?_ fun a b => toDigits_inj
    intro b h
    have := Nat.length_toDigits_pos (b := 10) (n := b)
    rw [h] at this; simp at this

theorem readSci_decimalChars (n k : Nat) : readSci (decimalChars n k) = (n : ℚ) / 10 ^ k := by
  have h : ∀ c ∈ decimalChars n k, (decide (c ≠ 'e' ∧ c ≠ 'E')) = true := by
    intro c hc
    rcases decimalChars_mem hc with h | rfl
    · rw [decide_eq_true_iff]; constructor <;> rintro rfl <;> exact absurd h (by decide)
    · decide
  have h1 : (decimalChars n k).takeWhile (fun c => decide (c ≠ 'e' ∧ c ≠ 'E')) = decimalChars n k := by
    have := List.takeWhile_append_of_pos (l₂ := []) h
    rwa [List.append_nil, List.takeWhile_nil, List.append_nil] at this
  have h2 : (decimalChars n k).dropWhile (fun c => decide (c ≠ 'e' ∧ c ≠ 'E')) = [] := by
    have := List.dropWhile_append_of_pos (l₂ := []) h
    rwa [List.append_nil, List.dropWhile_nil] at this
  unfold readSci
  rw [h1, h2, readDecimal_decimalChars]
  simp [readInt, Nat.ofDigitChars]

theorem readFloatExp_head {F : FFmt} (s : Bool) {t : List Char} (ht : ∃ c l, t = c :: l ∧ c.isDigit = true) :
    readFloatExp (F := F) (String.ofList ((if s then ['-'] else []) ++ t)) = Flt.round s (readSci t) (readSci_nonneg _) := by
  obtain ⟨c, l, rfl, hc⟩ := ht
  have h1 : c ≠ 'N' := by rintro rfl; exact absurd hc (by decide)
  have h2 : c ≠ 'i' := by rintro rfl; exact absurd hc (by decide)
  have h3 : c ≠ '-' := by rintro rfl; exact absurd hc (by decide)
  unfold readFloatExp
  rw [String.toList_ofList]
  cases s
  · simp only [Bool.false_eq_true, if_false, List.nil_append]
    split <;> simp_all
  · simp only [if_true, List.cons_append, List.nil_append]
    split <;> simp_all

/-- the magnitude in a debug text -/
def dbgMag {F : FFmt} (m : ℚ) (hm : F.Rep m) : List Char :=
  if Flt.dbgExp m hm then sciAll false (F.shortestDigits m).1 (F.shortestDigits m).2
  else if m = 0 then decimalChars 0 1
  else if 0 ≤ (F.shortestDigits m).2 then decimalChars ((F.shortestDigits m).1 * 10 ^ (F.shortestDigits m).2.toNat * 10) 1
  else decimalChars (F.shortestDigits m).1 (-(F.shortestDigits m).2).toNat

theorem dbgMag_head {F : FFmt} (m : ℚ) (hm : F.Rep m) : ∃ c l, dbgMag m hm = c :: l ∧ c.isDigit = true := by
  unfold dbgMag
  split
  · exact sciChars_head ..
  · split
    · exact decimalChars_head ..
    · split <;> exact decimalChars_head ..

theorem dbgMag_value {F : FFmt} (m : ℚ) (hm : F.Rep m) : F.rnd (readSci (dbgMag m hm)) = m := by
  have hr := FFmt.shortestDigits_rnd hm
  rw [pow10_eq] at hr
  unfold dbgMag
  split
  · rw [readSci_sciAll]; exact hr
  · split
    · rename_i h0; rw [readSci_decimalChars, h0]; simp [F.rnd_zero]
    · split
      · rename_i h; rw [readSci_decimalChars]
        obtain ⟨j, hj⟩ := Int.eq_ofNat_of_zero_le h
        rw [hj] at hr ⊢
        rw [zpow_natCast] at hr
        rw [Int.toNat_natCast]
        push_cast
        rw [pow_one, mul_div_assoc, div_self (by norm_num), mul_one]
        exact hr
      · rename_i h; rw [readSci_decimalChars]
        obtain ⟨j, hj⟩ : ∃ j : Nat, (F.shortestDigits m).2 = -(j : ℤ) := ⟨(-(F.shortestDigits m).2).toNat, by omega⟩
        rw [hj] at hr ⊢
        rw [neg_neg, Int.toNat_natCast, div_eq_mul_inv, ← zpow_natCast, ← zpow_neg]
        exact hr

/-- **C96 (floats).** The debug text of a float reads back as this float (infinities, NaN and the sign of zero included). -/
theorem C96_float_reads_back {F : FFmt} (x : Flt F) {st : DSty} {s : List Char} (h : Dbg.text st x s) : readFloatExp (String.ofList s) = x := by
  have h : s = x.dbgChars := h
  rw [h]
  cases x with
  | nan => unfold readFloatExp; rw [String.toList_ofList]; rfl
  | inf s => unfold readFloatExp; rw [String.toList_ofList]; cases s <;> rfl
  | fin s m hm =>
    show readFloatExp (String.ofList ((if s then ['-'] else []) ++ dbgMag m hm)) = _
    rw [readFloatExp_head s (dbgMag_head m hm)]
    unfold Flt.round
    simp only [dbgMag_value m hm, hm.le_maxFin, dif_pos]

theorem sciChars_plain {u : Bool} {n k : Nat} {e : Int} {c : Char} (h : c ∈ sciChars u n k e) : plainChar c = true := by
  unfold sciChars at h
  rcases List.mem_append.1 h with h | h
  · rcases decimalChars_mem h with h | rfl
    · exact plainChar_digit h
    · decide
  · rcases List.mem_cons.1 h with rfl | h
    · cases u <;> decide
    · rcases intChars_mem h with h | rfl
      · exact plainChar_digit h
      · decide

theorem decimalChars_plain {n k : Nat} {c : Char} (h : c ∈ decimalChars n k) : plainChar c = true := by
  rcases decimalChars_mem h with h | rfl
  · exact plainChar_digit h
  · decide

/-- **C96 (floats).** The debug text of a float identifies it. -/
theorem C96_float {F : FFmt} : DebugIdentifies (Flt F) Eq := by
  refine number_identifies Flt.dbgChars (fun _ _ _ => Iff.rfl) ?_ ?_ ?_
  · intro x c hc
    cases x with
    | nan =>
      have h : ∀ c ∈ ['N', 'a', 'N'], plainChar c = true := by decide
      exact h c hc
    | inf s =>
      have h : ∀ s : Bool, ∀ c ∈ (if s then ['-'] else []) ++ ['i', 'n', 'f'], plainChar c = true := by decide
      exact h s c hc
    | fin s m hm =>
      have hc : c ∈ (if s then ['-'] else []) ++ dbgMag m hm := hc
      rcases List.mem_append.1 hc with h | h
      · cases s
        · simp at h
        · rw [List.mem_singleton.1 h]; decide
      · unfold dbgMag at h
        split at h
        · exact sciChars_plain h
        · split at h
          · exact decimalChars_plain h
          · split at h <;> exact decimalChars_plain h
  · intro x h
    cases x with
    | nan => cases h
    | inf s => cases s <;> cases h
    | fin s m hm =>
      have h : (if s then ['-'] else []) ++ dbgMag m hm = [] := h
      obtain ⟨c, l, hcl, -⟩ := dbgMag_head m hm
      rw [hcl] at h
      simp at h
  · intro a b h
    rw [← C96_float_reads_back a (st := none) rfl, ← C96_float_reads_back b (st := none) rfl, h]

theorem hexChars_ne {n : Nat} {c : Char} (h : c ∈ hexChars n) : c ≠ '}' := by
  unfold hexChars at h
  obtain ⟨d, hd, rfl⟩ := List.mem_map.1 h
  have hd : d < 16 := Nat.digits_lt_base (by norm_num) (List.mem_reverse.1 hd)
  have : ∀ d < 16, Nat.digitChar d ≠ '}' := by decide
  exact this d hd

theorem hexChars_inj {a b : Nat} (h : hexChars a = hexChars b) : a = b := by
  have key : ∀ l l' : List Nat, (∀ x ∈ l, x < 16) → (∀ x ∈ l', x < 16) → l.map Nat.digitChar = l'.map Nat.digitChar → l = l' := by
    intro l
    induction l with
    | nil => intro l' _ _ h; cases l' with | nil => rfl | cons _ _ => cases h
    | cons x l ih =>
      intro l' h1 h2 h
      cases l' with
      | nil => cases h
      | cons y l' =>
        simp only [List.map_cons] at h
        injection h with h h'
        have : ∀ x < 16, ∀ y < 16, Nat.digitChar x = Nat.digitChar y → x = y := by decide
        rw [this x (h1 x (by simp)) y (h2 y (by simp)) h, ih l' (fun z hz => h1 z (List.mem_cons_of_mem _ hz)) (fun z hz => h2 z (List.mem_cons_of_mem _ hz)) h']
  have hlt : ∀ n, ∀ x ∈ (Nat.digits 16 n).reverse, x < 16 := fun n x hx => Nat.digits_lt_base (by norm_num) (List.mem_reverse.1 hx)
  exact Nat.digits_inj_iff.1 (List.reverse_injective (key _ _ (hlt a) (hlt b) h))

/-- the characters with short escapes -/
def shortEscapes : List (Char × Char) := [('\x00', '0'), ('\t', 't'), ('\r', 'r'), ('\n', 'n'), ('\\', '\\'), ('"', '"')]

theorem escapeDebug_cases (pr : Char → Bool) (c : Char) :
    (escapeDebug pr c = [c] ∧ c ≠ '\\' ∧ c ≠ '"') ∨ (∃ x, escapeDebug pr c = ['\\', x] ∧ (c, x) ∈ shortEscapes) ∨ escapeDebug pr c = '\\' :: 'u' :: '{' :: (hexChars c.toNat ++ ['}']) := by
  unfold escapeDebug
  by_cases h1 : c = '\x00'
  · exact .inr (.inl ⟨'0', by rw [if_pos h1], by rw [h1]; decide⟩)
  rw [if_neg h1]
  by_cases h2 : c = '\t'
  · exact .inr (.inl ⟨'t', by rw [if_pos h2], by rw [h2]; decide⟩)
  rw [if_neg h2]
  by_cases h3 : c = '\r'
  · exact .inr (.inl ⟨'r', by rw [if_pos h3], by rw [h3]; decide⟩)
  rw [if_neg h3]
  by_cases h4 : c = '\n'
  · exact .inr (.inl ⟨'n', by rw [if_pos h4], by rw [h4]; decide⟩)
  rw [if_neg h4]
  by_cases h5 : c = '\\'
  · exact .inr (.inl ⟨'\\', by rw [if_pos h5], by rw [h5]; decide⟩)
  rw [if_neg h5]
  by_cases h6 : c = '"'
  · exact .inr (.inl ⟨'"', by rw [if_pos h6], by rw [h6]; decide⟩)
  rw [if_neg h6]
  by_cases h7 : pr c = true
  · exact .inl ⟨by rw [if_pos h7], h5, h6⟩
  · exact .inr (.inr (by rw [if_neg h7]))

/-- the escaped form of a character shows where it ends and which it is -/
theorem escapeDebug_cut (pr : Char → Bool) {c d : Char} {r r' : List Char} (h : escapeDebug pr c ++ r = escapeDebug pr d ++ r') : c = d ∧ r = r' := by
  have hu : ∀ p ∈ shortEscapes, p.2 ≠ 'u' := by decide
  have hi : ∀ p ∈ shortEscapes, ∀ q ∈ shortEscapes, p.2 = q.2 → p.1 = q.1 := by decide
  have hx : ∀ (n m : Nat) (r r' : List Char), hexChars n ++ '}' :: r = hexChars m ++ '}' :: r' → n = m ∧ r = r' := by
    have tw : ∀ (n : Nat) (r : List Char), (hexChars n ++ '}' :: r).takeWhile (· ≠ '}') = hexChars n := by
      intro n r
      rw [List.takeWhile_append_of_pos fun c hc => by simpa using hexChars_ne hc]
      simp
    intro n m r r' e
    have e1 := congrArg (List.takeWhile (· ≠ '}')) e
    rw [tw, tw] at e1
    rw [e1] at e
    have e2 := List.append_cancel_left e
    injection e2 with _ e2
    exact ⟨hexChars_inj e1, e2⟩
  rcases escapeDebug_cases pr c with ⟨h1, c1, -⟩ | ⟨x, h1, c1⟩ | h1 <;> rcases escapeDebug_cases pr d with ⟨h2, c2, -⟩ | ⟨y, h2, c2⟩ | h2 <;> rw [h1, h2] at h <;>
    simp only [List.cons_append, List.nil_append, List.append_assoc] at h <;> injection h with ha hb
  · exact ⟨ha, hb⟩
  · exact absurd ha c1
  · exact absurd ha c1
  · exact absurd ha.symm c2
  · injection hb with hb hc
    exact ⟨hi _ c1 _ c2 hb, hc⟩
  · injection hb with hb _
    exact absurd hb (hu _ c1)
  · exact absurd ha.symm c2
  · injection hb with hb _
    exact absurd hb.symm (hu _ c2)
  · injection hb with _ hb
    injection hb with _ hb
    obtain ⟨h3, h4⟩ := hx _ _ _ _ hb
    exact ⟨Char.toNat_inj.1 h3, h4⟩

theorem escapeDebug_head (pr : Char → Bool) (c : Char) (r r' : List Char) : escapeDebug pr c ++ r ≠ '"' :: r' := by
  intro h
  rcases escapeDebug_cases pr c with ⟨h1, -, c1⟩ | ⟨x, h1, c1⟩ | h1 <;> rw [h1] at h <;> injection h with h _
  · exact c1 h
  · exact absurd h (by decide)
  · exact absurd h (by decide)

/-- **C96 (strings).** The debug text of a string identifies it, whichever characters are escaped as not printable. -/
theorem C96_string (pr : Char → Bool) : letI := strDbg pr; DebugIdentifies String Eq := by
  let _ := strDbg pr
  refine ⟨fun st b => ⟨_, rfl⟩, ?_, ?_, ?_⟩
  · rintro st a b s rfl h; exact h
  · intro st a s h
    exact ⟨'"', _, h, by decide, by decide⟩
  · intro st a b s t h h' r r' _ _ e
    have h : s = '"' :: (a.toList.flatMap (escapeDebug pr) ++ ['"']) := h
    have h' : t = '"' :: (b.toList.flatMap (escapeDebug pr) ++ ['"']) := h'
    rw [h, h'] at e
    simp only [List.cons_append, List.append_assoc, List.nil_append] at e
    injection e with _ e
    have key : ∀ (l l' : List Char) (r r' : List Char), l.flatMap (escapeDebug pr) ++ '"' :: r = l'.flatMap (escapeDebug pr) ++ '"' :: r' → l = l' ∧ r = r' := by
      intro l
      induction l with
      | nil =>
        intro l' r r' e
        cases l' with
        | nil => injection e with _ e; exact ⟨rfl, e⟩
        | cons c l' =>
          simp only [List.flatMap_nil, List.nil_append, List.flatMap_cons, List.append_assoc] at e
          exact absurd e.symm (escapeDebug_head _ _ _ _)
      | cons c l ih =>
        intro l' r r' e
        cases l' with
        | nil =>
          simp only [List.flatMap_nil, List.nil_append, List.flatMap_cons, List.append_assoc] at e
          exact absurd e (escapeDebug_head _ _ _ _)
        | cons d l' =>
          simp only [List.flatMap_cons, List.append_assoc] at e
          obtain ⟨rfl, e'⟩ := escapeDebug_cut pr e
          obtain ⟨e1, e2⟩ := ih _ _ _ e'
          exact ⟨by rw [e1], e2⟩
    obtain ⟨e1, e2⟩ := key _ _ _ _ e
    exact ⟨String.toList_inj.1 e1, e2⟩

/-! ## Containers -/

/-- **C96 (`Vec`).** The debug text of a list identifies its items, and so how many there are. -/
theorem C96_list {T : Type} [Dbg T] {R : T → T → Prop} (h : DebugIdentifies T R) : DebugIdentifies (List T) (List.Forall₂ R) where
  total st l := by
    have : ∃ ts, List.Forall₂ (Dbg.text st.inner) l ts := by
      induction l with
      | nil => exact ⟨[], .nil⟩
      | cons x l ih =>
        obtain ⟨ts, hts⟩ := ih
        obtain ⟨t, ht⟩ := h.total st.inner x
        exact ⟨t :: ts, .cons ht hts⟩
    obtain ⟨ts, hts⟩ := this
    exact ⟨_, ts, hts, rfl⟩
  resp := by
    rintro st a b s hr ⟨ts, hts, rfl⟩
    refine ⟨ts, ?_, rfl⟩
    induction hr generalizing ts with
    | nil => exact hts
    | cons hx _ ih => cases hts with | cons ht hts => exact .cons (h.resp hx ht) (ih _ hts)
  head := by
    rintro st a s ⟨ts, _, rfl⟩
    exact ⟨'[', _, rfl, by decide, by decide⟩
  cut := by
    rintro st a b s t ⟨ss, hss, rfl⟩ ⟨ts, hts, rfl⟩ r r' _ _ e
    unfold dbgList at e
    simp only [List.cons_append, List.append_assoc, List.nil_append] at e
    injection e with _ e
    exact cut_many (P := Dbg.text st.inner) (R := R) (fun hs ht => h.cut hs ht) st (close := ']') (by decide) (by decide) (by decide) (by decide)
      (fun hx => by obtain ⟨c, l, h1, h2, -⟩ := h.head hx; exact ⟨c, l, h1, h2⟩) hss hts r r' e

/-- **C96 (`HashMap`).** The debug text of a map, in whichever order it is iterated, identifies its entries. -/
theorem C96_map {K V : Type} [Dbg K] [Dbg V] (hK : DebugIdentifies K Eq) (hV : DebugIdentifies V Eq) : DebugIdentifies (HMap K V) HMap.SameEntries where
  total st m := by
    have : ∀ l : List (K × V), ∃ ts, List.Forall₂ (fun e t => ∃ a b, Dbg.text st.inner e.1 a ∧ Dbg.text st.inner e.2 b ∧ t = dbgEntry a b) l ts := by
      intro l
      induction l with
      | nil => exact ⟨[], .nil⟩
      | cons x l ih =>
        obtain ⟨ts, hts⟩ := ih
        obtain ⟨a, ha⟩ := hK.total st.inner x.1
        obtain ⟨b, hb⟩ := hV.total st.inner x.2
        exact ⟨_ :: ts, .cons ⟨a, b, ha, hb, rfl⟩ hts⟩
    obtain ⟨ts, hts⟩ := this m.entries
    exact ⟨_, ⟨m.entries, .refl _⟩, ts, hts, rfl⟩
  resp := by
    rintro st a b s hr ⟨o, ts, hts, rfl⟩
    exact ⟨⟨o.list, o.perm.trans hr⟩, ts, hts, rfl⟩
  head := by
    rintro st a s ⟨o, ts, _, rfl⟩
    exact ⟨'{', _, rfl, by decide, by decide⟩
  cut := by
    rintro st a b s t ⟨o, ss, hss, rfl⟩ ⟨o', ts, hts, rfl⟩ r r' _ _ e
    unfold dbgMap at e
    simp only [List.cons_append, List.append_assoc, List.nil_append] at e
    injection e with _ e
    obtain ⟨h1, h2⟩ := cut_many (P := fun (e : K × V) t => ∃ a b, Dbg.text st.inner e.1 a ∧ Dbg.text st.inner e.2 b ∧ t = dbgEntry a b) (R := Eq) (by
        rintro x y s t ⟨a, b, ha, hb, rfl⟩ ⟨a', b', ha', hb', rfl⟩ r r' hr hr' e
        unfold dbgEntry at e
        simp only [List.append_assoc, List.cons_append] at e
        obtain ⟨e1, e2⟩ := hK.cut ha ha' _ _ (ends_cons (by decide) _) (ends_cons (by decide) _) e
        injection e2 with _ e2
        injection e2 with _ e2
        obtain ⟨e3, e4⟩ := hV.cut hb hb' _ _ hr hr' e2
        exact ⟨Prod.ext e1 e3, e4⟩) st (close := '}') (by decide) (by decide) (by decide) (by decide)
      (by
        rintro x s ⟨a, b, ha, hb, rfl⟩
        obtain ⟨c, l, rfl, -, h2⟩ := hK.head ha
        exact ⟨c, _, rfl, h2⟩) hss hts r r' e
    rw [List.forall₂_eq_eq_eq] at h1
    exact ⟨(h1 ▸ o.perm.symm).trans o'.perm, h2⟩

/-! ## Axes -/

/-- a struct with one field -/
theorem struct1_identifies {A B : Type} [Dbg A] [Dbg B] (name field : String) (g : B → A) {R : A → A → Prop} (h : DebugIdentifies A R)
    (hdef : ∀ st (b : B) s, Dbg.text st b s ↔ ∃ t, Dbg.text st.inner (g b) t ∧ s = dbgStruct st name [(field, t)])
    (hname : (name.toList.head?.any fun c => c != ']' && c != '}') = true) : DebugIdentifies B (fun a b => R (g a) (g b)) := by
  refine (struct_identifies name [fieldOf field g R] (by simpa using fieldOf_law field g h) ?_ hname).mono (by simp)
  intro st b s
  rw [hdef]
  constructor
  · rintro ⟨t, ht, rfl⟩; exact ⟨[t], .cons ht .nil, rfl⟩
  · rintro ⟨ts, hts, rfl⟩
    rcases hts with _ | ⟨h1, _ | _⟩
    exact ⟨_, h1, rfl⟩

/-- a struct with two fields -/
theorem struct2_identifies {A A' B : Type} [Dbg A] [Dbg A'] [Dbg B] (name field field' : String) (g : B → A) (g' : B → A') {R : A → A → Prop} {R' : A' → A' → Prop} (h : DebugIdentifies A R)
    (h' : DebugIdentifies A' R')
    (hdef : ∀ st (b : B) s, Dbg.text st b s ↔ ∃ t u, Dbg.text st.inner (g b) t ∧ Dbg.text st.inner (g' b) u ∧ s = dbgStruct st name [(field, t), (field', u)])
    (hname : (name.toList.head?.any fun c => c != ']' && c != '}') = true) : DebugIdentifies B (fun a b => R (g a) (g b) ∧ R' (g' a) (g' b)) := by
  refine (struct_identifies name [fieldOf field g R, fieldOf field' g' R'] (by simpa using ⟨fieldOf_law field g h, fieldOf_law field' g' h'⟩) ?_ hname).mono (by simp)
  intro st b s
  rw [hdef]
  constructor
  · rintro ⟨t, u, ht, hu, rfl⟩; exact ⟨[t, u], .cons ht (.cons hu .nil), rfl⟩
  · rintro ⟨ts, hts, rfl⟩
    rcases hts with _ | ⟨h1, _ | ⟨h2, _ | _⟩⟩
    exact ⟨_, _, h1, h2, rfl⟩

theorem dbgList_eq {T : Type} [Dbg T] (h : DebugIdentifies T Eq) : DebugIdentifies (List T) Eq :=
  (C96_list h).mono fun a b => by rw [List.forall₂_eq_eq_eq]

section
variable {T : Type} [Dbg T] (h : DebugIdentifies T Eq)
include h

/-- **C96 (uniform axes).** The debug text identifies the axis: number of bins, ends and step. -/
theorem C96_uniform : DebugIdentifies (Uniform T) Eq ∧ DebugIdentifies (UniformNoFlow T) Eq ∧ DebugIdentifies (UniformCyclic T) Eq := by
  have h1 : DebugIdentifies (Uniform T) Eq := by
    refine (struct_identifies "Uniform" [fieldOf "num" Uniform.num Eq, fieldOf "low" Uniform.low Eq, fieldOf "high" Uniform.high Eq, fieldOf "step" Uniform.step Eq] ?_ ?_ (by decide)).mono ?_
    · simp only [List.forall_mem_cons]
      exact ⟨fieldOf_law _ _ (C96_int (τ := .u8)).2, fieldOf_law _ _ h, fieldOf_law _ _ h, fieldOf_law _ _ h, by simp⟩
    · intro st b s
      constructor
      · rintro ⟨l, u, d, hl, hu, hd, rfl⟩
        exact ⟨[_, l, u, d], .cons rfl (.cons hl (.cons hu (.cons hd .nil))), rfl⟩
      · rintro ⟨ts, hts, rfl⟩
        rcases hts with _ | ⟨h1, _ | ⟨h2, _ | ⟨h3, _ | ⟨h4, _ | _⟩⟩⟩⟩
        cases h1
        exact ⟨_, _, _, h2, h3, h4, rfl⟩
    · intro a b
      simp only [List.forall_mem_cons]
      cases a; cases b
      simp
  have h2 : DebugIdentifies (UniformNoFlow T) Eq := (struct1_identifies "UniformNoFlow" "axis" UniformNoFlow.axis h1 (fun _ _ _ => Iff.rfl) (by decide)).mono fun a b => by cases a; cases b; simp
  exact ⟨h1, h2, (struct1_identifies "UniformCyclic" "axis" UniformCyclic.axis h2 (fun _ _ _ => Iff.rfl) (by decide)).mono fun a b => by cases a; cases b; simp⟩

/-- **C96 (variable axes).** The debug text identifies the axis: its edges. -/
theorem C96_variable : DebugIdentifies (Variable T) Eq ∧ DebugIdentifies (VariableNoFlow T) Eq ∧ DebugIdentifies (VariableCyclic T) Eq := by
  have h1 : DebugIdentifies (Variable T) Eq := (struct1_identifies "Variable" "bin_edges" Variable.binEdges (dbgList_eq h) (fun _ _ _ => Iff.rfl) (by decide)).mono fun a b => by cases a; cases b; simp
  have h2 : DebugIdentifies (VariableNoFlow T) Eq := (struct1_identifies "VariableNoFlow" "axis" VariableNoFlow.axis h1 (fun _ _ _ => Iff.rfl) (by decide)).mono fun a b => by cases a; cases b; simp
  exact ⟨h1, h2, (struct1_identifies "VariableCyclic" "axis" VariableCyclic.axis h2 (fun _ _ _ => Iff.rfl) (by decide)).mono fun a b => by cases a; cases b; simp⟩

/-- **C96 (category axes).** The debug text identifies the axis: the categories and their numbers. -/
theorem C96_category : DebugIdentifies (Category T) Category.SameMaps ∧ DebugIdentifies (CategoryNoFlow T) (fun a b => a.axis.SameMaps b.axis) := by
  have h1 : DebugIdentifies (Category T) Category.SameMaps :=
    struct2_identifies "Category" "map_t_to_index" "map_index_to_t" Category.mapTToIndex Category.mapIndexToT (C96_map h (C96_int (τ := .u8)).2) (C96_map (C96_int (τ := .u8)).2 h) (fun _ _ _ => Iff.rfl) (by decide)
  exact ⟨h1, struct1_identifies "CategoryNoFlow" "axis" CategoryNoFlow.axis h1 (fun _ _ _ => Iff.rfl) (by decide)⟩

/-- **C96 (bins).** The debug text identifies the bin. -/
theorem C96_bins : DebugIdentifies (BinInterval T) Eq ∧ DebugIdentifies (SingleValueBinInterval T) Eq := by
  constructor
  · refine ⟨?_, ?_, ?_, ?_⟩
    · intro st a
      cases a with
      | Underflow e => obtain ⟨t, ht⟩ := h.total st.inner e; exact ⟨_, t, ht, rfl⟩
      | Overflow e => obtain ⟨t, ht⟩ := h.total st.inner e; exact ⟨_, t, ht, rfl⟩
      | Bin x e => obtain ⟨t, ht⟩ := h.total st.inner x; obtain ⟨u, hu⟩ := h.total st.inner e; exact ⟨_, t, u, ht, hu, rfl⟩
    · rintro st a b s rfl h; exact h
    · intro st a s ha
      cases a with
      | Underflow e => obtain ⟨t, -, rfl⟩ := ha; exact ⟨'U', _, rfl, by decide, by decide⟩
      | Overflow e => obtain ⟨t, -, rfl⟩ := ha; exact ⟨'O', _, rfl, by decide, by decide⟩
      | Bin x e => obtain ⟨t, u, -, -, rfl⟩ := ha; exact ⟨'B', _, rfl, by decide, by decide⟩
    · intro st a b s t ha hb r r' hr hr' e
      cases a with
      | Underflow x =>
        obtain ⟨u, hu, rfl⟩ := ha
        cases b with
        | Underflow y =>
          obtain ⟨v, hv, rfl⟩ := hb
          obtain ⟨h1, h2⟩ := cut_struct st "Underflow" [("end", u, v, x = y)] (by simp only [List.forall_mem_cons]; exact ⟨h.cut hu hv, by simp⟩) r r' hr hr' e
          exact ⟨by simpa using h1, h2⟩
        | Overflow y => obtain ⟨v, hv, rfl⟩ := hb; injection e with e _; exact absurd e (by decide)
        | Bin y z => obtain ⟨v, w, hv, hw, rfl⟩ := hb; injection e with e _; exact absurd e (by decide)
      | Overflow x =>
        obtain ⟨u, hu, rfl⟩ := ha
        cases b with
        | Underflow y => obtain ⟨v, hv, rfl⟩ := hb; injection e with e _; exact absurd e (by decide)
        | Overflow y =>
          obtain ⟨v, hv, rfl⟩ := hb
          obtain ⟨h1, h2⟩ := cut_struct st "Overflow" [("start", u, v, x = y)] (by simp only [List.forall_mem_cons]; exact ⟨h.cut hu hv, by simp⟩) r r' hr hr' e
          exact ⟨by simpa using h1, h2⟩
        | Bin y z => obtain ⟨v, w, hv, hw, rfl⟩ := hb; injection e with e _; exact absurd e (by decide)
      | Bin x x' =>
        obtain ⟨u, u', hu, hu', rfl⟩ := ha
        cases b with
        | Underflow y => obtain ⟨v, hv, rfl⟩ := hb; injection e with e _; exact absurd e (by decide)
        | Overflow y => obtain ⟨v, hv, rfl⟩ := hb; injection e with e _; exact absurd e (by decide)
        | Bin y y' =>
          obtain ⟨v, v', hv, hv', rfl⟩ := hb
          obtain ⟨h1, h2⟩ := cut_struct st "Bin" [("start", u, v, x = y), ("end", u', v', x' = y')] (by
            simp only [List.forall_mem_cons]; exact ⟨h.cut hu hv, h.cut hu' hv', by simp⟩) r r' hr hr' e
          exact ⟨by simpa using h1, h2⟩
  · refine ⟨?_, ?_, ?_, ?_⟩
    · intro st a
      cases a with
      | Overflow => exact ⟨_, rfl⟩
      | Bin x => obtain ⟨t, ht⟩ := h.total st.inner x; exact ⟨_, t, ht, rfl⟩
    · rintro st a b s rfl h; exact h
    · intro st a s ha
      cases a with
      | Overflow => exact ⟨'O', _, ha, by decide, by decide⟩
      | Bin x => obtain ⟨t, -, rfl⟩ := ha; exact ⟨'B', _, rfl, by decide, by decide⟩
    · intro st a b s t ha hb r r' hr hr' e
      cases a with
      | Overflow =>
        cases ha
        cases b with
        | Overflow => cases hb; exact ⟨rfl, List.append_cancel_left e⟩
        | Bin y => obtain ⟨v, hv, rfl⟩ := hb; injection e with e _; exact absurd e (by decide)
      | Bin x =>
        obtain ⟨u, hu, rfl⟩ := ha
        cases b with
        | Overflow => cases hb; injection e with e _; exact absurd e (by decide)
        | Bin y =>
          obtain ⟨v, hv, rfl⟩ := hb
          obtain ⟨h1, h2⟩ := cut_struct st "Bin" [("value", u, v, x = y)] (by simp only [List.forall_mem_cons]; exact ⟨h.cut hu hv, by simp⟩) r r' hr hr' e
          exact ⟨by simpa using h1, h2⟩

/-- **C96 (values).** The debug text identifies a bin value. -/
theorem C96_sums : DebugIdentifies (Sum T) Eq ∧ DebugIdentifies (WeightedSum T) Eq := by
  refine ⟨(struct1_identifies "Sum" "sum" Sum.sum h (fun _ _ _ => Iff.rfl) (by decide)).mono fun a b => by cases a; cases b; simp,
    (struct2_identifies "WeightedSum" "sumw" "sumw2" WeightedSum.sumw WeightedSum.sumw2 h h (fun _ _ _ => Iff.rfl) (by decide)).mono fun a b => by cases a; cases b; simp⟩
end

/-- **C96 (means).** The debug text identifies a mean: its sums and its count. -/
theorem C96_means {T W O C : Type} [Dbg T] [Dbg W] [TypeName O] [Dbg C] (hT : DebugIdentifies T Eq) (hW : DebugIdentifies W Eq) (hC : DebugIdentifies C Eq) :
    DebugIdentifies (Mean T O C) Eq ∧ DebugIdentifies (WeightedMean T W O C) Eq := by
  constructor
  · refine (struct_identifies "Mean" [fieldOf "sumw" Mean.sumw Eq, fieldOf "sumw2" Mean.sumw2 Eq, fieldOf "count" Mean.count Eq,
      ⟨"phantom_output_type", fun _ _ t => t = phantomText O, fun _ _ => True⟩] ?_ ?_ (by decide)).mono ?_
    · simp only [List.forall_mem_cons]
      exact ⟨fieldOf_law _ _ hT, fieldOf_law _ _ hT, fieldOf_law _ _ hC, ⟨fun _ _ => ⟨_, rfl⟩, fun _ h => h, fun {_ _ _ _ _} h h' => by rw [h, h']; exact Cut.const _⟩, by simp⟩
    · intro st b s
      constructor
      · rintro ⟨t, u, c, ht, hu, hc, rfl⟩
        exact ⟨[t, u, c, _], .cons ht (.cons hu (.cons hc (.cons rfl .nil))), rfl⟩
      · rintro ⟨ts, hts, rfl⟩
        rcases hts with _ | ⟨h1, _ | ⟨h2, _ | ⟨h3, _ | ⟨h4, _ | _⟩⟩⟩⟩
        cases h4
        exact ⟨_, _, _, h1, h2, h3, rfl⟩
    · intro a b
      simp only [List.forall_mem_cons]
      cases a; cases b
      simp
  · refine (struct_identifies "WeightedMean" [fieldOf "sumwt" WeightedMean.sumwt Eq, fieldOf "sumwt2" WeightedMean.sumwt2 Eq, fieldOf "sumw" WeightedMean.sumw Eq, fieldOf "sumw2" WeightedMean.sumw2 Eq,
      fieldOf "count" WeightedMean.count Eq, ⟨"phantom_output_type", fun _ _ t => t = phantomText O, fun _ _ => True⟩] ?_ ?_ (by decide)).mono ?_
    · simp only [List.forall_mem_cons]
      exact ⟨fieldOf_law _ _ hT, fieldOf_law _ _ hT, fieldOf_law _ _ hW, fieldOf_law _ _ hW, fieldOf_law _ _ hC,
        ⟨fun _ _ => ⟨_, rfl⟩, fun _ h => h, fun {_ _ _ _ _} h h' => by rw [h, h']; exact Cut.const _⟩, by simp⟩
    · intro st b s
      constructor
      · rintro ⟨t, u, w, v, c, ht, hu, hw, hv, hc, rfl⟩
        exact ⟨[t, u, w, v, c, _], .cons ht (.cons hu (.cons hw (.cons hv (.cons hc (.cons rfl .nil))))), rfl⟩
      · rintro ⟨ts, hts, rfl⟩
        rcases hts with _ | ⟨h1, _ | ⟨h2, _ | ⟨h3, _ | ⟨h4, _ | ⟨h5, _ | ⟨h6, _ | _⟩⟩⟩⟩⟩⟩
        cases h6
        exact ⟨_, _, _, _, _, h1, h2, h3, h4, h5, rfl⟩
    · intro a b
      simp only [List.forall_mem_cons]
      cases a; cases b
      simp

/-- **C96 (one axis).** -/
theorem C96_tuple1 {X : Type} [Dbg X] {R : X → X → Prop} (h : DebugIdentifies X R) : DebugIdentifies (AxesTuple1 X) (fun a b => R a.axis b.axis ∧ a.shape = b.shape) := by
  refine (struct_identifies "AxesTuple" [⟨"axes", fun st a t => ∃ x, Dbg.text st.inner a.axis x ∧ t = dbgTuple st [x], fun a b => R a.axis b.axis⟩, fieldOf "shape" AxesTuple1.shape Eq] ?_ ?_ (by decide)).mono
    (by simp)
  · simp only [List.forall_mem_cons]
    refine ⟨⟨?_, ?_, ?_⟩, fieldOf_law _ _ (dbgList_eq (C96_int (τ := .u8)).2), by simp⟩
    · intro st b
      obtain ⟨x, hx⟩ := h.total st.inner b.axis
      exact ⟨_, x, hx, rfl⟩
    · rintro st a b t hr ⟨x, hx, rfl⟩
      exact ⟨x, h.resp hr hx, rfl⟩
    · rintro st a b s t ⟨x, hx, rfl⟩ ⟨y, hy, rfl⟩
      exact (cut_tuple st [(x, y, R a.axis b.axis)] (by simp only [List.forall_mem_cons]; exact ⟨h.cut hx hy, by simp⟩)).mono (by simp)
  · intro st b s
    constructor
    · rintro ⟨t, u, ht, hu, rfl⟩
      exact ⟨[_, u], .cons ⟨t, ht, rfl⟩ (.cons hu .nil), rfl⟩
    · rintro ⟨ts, hts, rfl⟩
      rcases hts with _ | ⟨h1, _ | ⟨h2, _ | _⟩⟩
      obtain ⟨x, hx, rfl⟩ := h1
      exact ⟨_, _, hx, h2, rfl⟩

theorem TupIdentifies.total [Cfg] {ts : List AxTy} [TupDbg ts] {R : Tup ts → Tup ts → Prop} (h : TupIdentifies ts R) (st : DSty) (a : Tup ts) : ∃ l, TupDbg.texts st a l := by
  induction h with
  | nil => exact ⟨[], rfl⟩
  | cons h _ ih =>
    obtain ⟨x, hx⟩ := h.total st a.1
    obtain ⟨l, hl⟩ := ih a.2
    exact ⟨_, x, l, hx, hl, rfl⟩

theorem TupIdentifies.resp [Cfg] {ts : List AxTy} [TupDbg ts] {R : Tup ts → Tup ts → Prop} (h : TupIdentifies ts R) {st : DSty} {a b : Tup ts} {l} (hr : R a b) (ha : TupDbg.texts st a l) :
    TupDbg.texts st b l := by
  induction h generalizing l with
  | nil => exact ha
  | cons h _ ih =>
    obtain ⟨x, xs, hx, hxs, rfl⟩ := ha
    exact ⟨x, xs, h.resp hr.1 hx, ih hr.2 hxs, rfl⟩

theorem TupIdentifies.cut [Cfg] {ts : List AxTy} [TupDbg ts] {R : Tup ts → Tup ts → Prop} (h : TupIdentifies ts R) {st : DSty} {a b : Tup ts} {l l'} (ha : TupDbg.texts st a l) (hb : TupDbg.texts st b l') :
    ∃ L : List (List Char × List Char × Prop), L.map (·.1) = l ∧ L.map (·.2.1) = l' ∧ (∀ x ∈ L, Cut x.1 x.2.1 x.2.2) ∧ ((∀ x ∈ L, x.2.2) → R a b) := by
  induction h generalizing l l' with
  | nil => cases ha; cases hb; exact ⟨[], rfl, rfl, by simp, by simp⟩
  | @cons t ts _ _ R S h _ ih =>
    obtain ⟨x, xs, hx, hxs, rfl⟩ := ha
    obtain ⟨y, ys, hy, hys, rfl⟩ := hb
    obtain ⟨L, e1, e2, e3, e4⟩ := ih hxs hys
    refine ⟨(x, y, R a.1 b.1) :: L, by rw [List.map_cons, e1], by rw [List.map_cons, e2], ?_, ?_⟩
    · simp only [List.forall_mem_cons]; exact ⟨h.cut hx hy, e3⟩
    · simp only [List.forall_mem_cons]; exact fun hh => ⟨hh.1, e4 hh.2⟩

/-- **C96 (tuples of axes).** -/
theorem C96_tuple [Cfg] {t₀ t₁ : AxTy} {ts : List AxTy} [TupDbg (t₀ :: t₁ :: ts)] {R : Tup (t₀ :: t₁ :: ts) → Tup (t₀ :: t₁ :: ts) → Prop} (h : TupIdentifies (t₀ :: t₁ :: ts) R) :
    DebugIdentifies (AxesTuple t₀ t₁ ts) (fun a b => R a.axes b.axes ∧ a.shape = b.shape) := by
  refine (struct_identifies "AxesTuple" [⟨"axes", fun st a t => ∃ l, TupDbg.texts st.inner a.axes l ∧ t = dbgTuple st l, fun a b => R a.axes b.axes⟩, fieldOf "shape" AxesTuple.shape Eq] ?_ ?_ (by decide)).mono
    (by simp)
  · simp only [List.forall_mem_cons]
    refine ⟨⟨?_, ?_, ?_⟩, fieldOf_law _ _ (dbgList_eq (C96_int (τ := .u8)).2), by simp⟩
    · intro st b
      obtain ⟨x, hx⟩ := h.total st.inner b.axes
      exact ⟨_, x, hx, rfl⟩
    · rintro st a b t hr ⟨x, hx, rfl⟩
      exact ⟨x, h.resp hr hx, rfl⟩
    · rintro st a b s t ⟨x, hx, rfl⟩ ⟨y, hy, rfl⟩
      obtain ⟨L, rfl, rfl, e3, e4⟩ := h.cut hx hy
      exact (cut_tuple st L e3).mono e4
  · intro st b s
    constructor
    · rintro ⟨t, u, ht, hu, rfl⟩
      exact ⟨[_, u], .cons ⟨t, ht, rfl⟩ (.cons hu .nil), rfl⟩
    · rintro ⟨ts, hts, rfl⟩
      rcases hts with _ | ⟨h1, _ | ⟨h2, _ | _⟩⟩
      obtain ⟨x, hx, rfl⟩ := h1
      exact ⟨_, _, hx, h2, rfl⟩

/-! ## Histograms -/
section
variable {A V : Type} [Dbg A] [Dbg V]

/-- **C96 (items).** -/
theorem C96_item (hA : DebugIdentifies A Eq) (hV : DebugIdentifies V Eq) : DebugIdentifies (Item A V) Eq := by
  refine (struct_identifies "Item" [fieldOf "index" Item.index Eq, fieldOf "bin" Item.bin Eq, fieldOf "value" Item.value Eq] ?_ ?_ (by decide)).mono ?_
  · simp only [List.forall_mem_cons]
    exact ⟨fieldOf_law _ _ (C96_int (τ := .u8)).2, fieldOf_law _ _ hA, fieldOf_law _ _ hV, by simp⟩
  · intro st b s
    constructor
    · rintro ⟨t, u, ht, hu, rfl⟩
      exact ⟨[_, t, u], .cons rfl (.cons ht (.cons hu .nil)), rfl⟩
    · rintro ⟨ts, hts, rfl⟩
      rcases hts with _ | ⟨h1, _ | ⟨h2, _ | ⟨h3, _ | _⟩⟩⟩
      cases h1
      exact ⟨_, _, h2, h3, rfl⟩
  · intro a b
    simp only [List.forall_mem_cons]
    cases a; cases b
    simp

/-- **C96 (dense histograms).** The debug text of a dense histogram identifies its axes and the value of every bin. -/
theorem C96_vec {R : A → A → Prop} (hA : DebugIdentifies A R) (hV : DebugIdentifies V Eq) : DebugIdentifies (VecHistogram A V) (fun h g => R h.axes g.axes ∧ h.values = g.values) :=
  struct2_identifies "VecHistogram" "axes" "values" VecHistogram.axes VecHistogram.values hA (dbgList_eq hV) (fun _ _ _ => Iff.rfl) (by decide)

/-- **C96 (sparse histograms).** The debug text of a sparse histogram, in whichever order it is printed, identifies its axes, which bins are filled, and their values. -/
theorem C96_sparse {R : A → A → Prop} (hA : DebugIdentifies A R) (hV : DebugIdentifies V Eq) :
    DebugIdentifies (HashHistogram A V) (fun h g => R h.axes g.axes ∧ h.values.SameEntries g.values) :=
  struct2_identifies "HashHistogram" "axes" "values" HashHistogram.axes HashHistogram.values hA (C96_map (C96_int (τ := .u8)).2 hV) (fun _ _ _ => Iff.rfl) (by decide)
end

/-- **C96 (errors).** The debug text of an error identifies it. -/
theorem C96_errors : DebugIdentifies AxisError Eq ∧ DebugIdentifies Error Eq := by
  have hp : ∀ e : AxisError, ∀ c ∈ e.dbg.toList, plainChar c = true := by intro e; cases e <;> decide
  have h1 : DebugIdentifies AxisError Eq :=
    number_identifies (fun e => e.dbg.toList) (fun _ _ _ => Iff.rfl) hp (by intro e; cases e <;> decide) (by intro a b; cases a <;> cases b <;> decide)
  refine ⟨h1, ?_, ?_, ?_, ?_⟩
  · intro st e
    cases e with
    | BinaryOperationError e => exact ⟨_, _, rfl, rfl⟩
    | AxisError e => exact ⟨_, _, rfl, rfl⟩
  · rintro st a b s rfl h; exact h
  · intro st e s h
    cases e with
    | BinaryOperationError e => obtain ⟨t, -, rfl⟩ := h; exact ⟨'B', _, rfl, by decide, by decide⟩
    | AxisError e => obtain ⟨t, -, rfl⟩ := h; exact ⟨'A', _, rfl, by decide, by decide⟩
  · intro st a b s t ha hb r r' hr hr' e
    cases a with
    | BinaryOperationError x =>
      obtain ⟨u, hu, rfl⟩ := ha
      cases b with
      | BinaryOperationError y =>
        obtain ⟨v, hv, rfl⟩ := hb
        cases x; cases y; cases hu; cases hv
        exact ⟨rfl, List.append_cancel_left e⟩
      | AxisError y => obtain ⟨v, hv, rfl⟩ := hb; injection e with e _; exact absurd e (by decide)
    | AxisError x =>
      obtain ⟨u, hu, rfl⟩ := ha
      cases b with
      | BinaryOperationError y => obtain ⟨v, hv, rfl⟩ := hb; injection e with e _; exact absurd e (by decide)
      | AxisError y =>
        obtain ⟨v, hv, rfl⟩ := hb
        simp only [List.append_assoc, List.cons_append, List.nil_append] at e
        have e := List.append_cancel_left e
        injection e with _ e
        obtain ⟨h2, h3⟩ := cut_items st (pad0 := []) (pad := []) (.inl rfl) (close := ')') (by decide) [(u, v, x = y)] (by simp only [List.forall_mem_cons]; exact ⟨h1.cut hu hv, by simp⟩) r r' e
        exact ⟨by simpa using h2, h3⟩
end NdHist
