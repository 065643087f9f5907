import Verif.SpecLayout
import Verif.Props.Debug
/-!
# C104: the layout of `{:#?}`
-/
namespace NdHist

@[simp] theorem shift_nil (k : Nat) : shift k [] = [] := rfl
theorem shift_append (k : Nat) (a b : List Char) : shift k (a ++ b) = shift k a ++ shift k b := by simp [shift]
theorem shift_cons (k : Nat) (c : Char) (b : List Char) : shift k (c :: b) = (if c = '\n' then '\n' :: List.replicate k ' ' else [c]) ++ shift k b := by simp [shift]
theorem shift_plain {k : Nat} {s : List Char} (h : '\n' ∉ s) : shift k s = s := by
  induction s with
  | nil => rfl
  | cons c s ih =>
    rw [shift_cons, if_neg (by rintro rfl; exact h (by simp)), ih (fun m => h (by simp [m]))]; rfl
theorem shift_spaces (k n : Nat) : shift k (List.replicate n ' ') = List.replicate n ' ' := shift_plain (by simp [List.mem_replicate])
theorem shift_zero (s : List Char) : shift 0 s = s := by
  induction s with
  | nil => rfl
  | cons c s ih => rw [shift_cons, ih]; split <;> simp_all
theorem shift_shift (k n : Nat) (s : List Char) : shift k (shift n s) = shift (k + n) s := by
  induction s with
  | nil => rfl
  | cons c s ih =>
    rw [shift_cons, shift_append, ih, shift_cons]
    split
    · next h => subst h; rw [shift_cons, if_pos rfl, shift_spaces]; simp
    · next h => simp [shift_cons, h]

theorem digits_no_newline (n : Nat) : '\n' ∉ Nat.toDigits 10 n := by
  intro h
  have := Nat.isDigit_of_mem_toDigits (by decide) (by decide) h
  exact absurd this (by decide)
theorem shift_digits (k n : Nat) : shift k (Nat.toDigits 10 n) = Nat.toDigits 10 n := shift_plain (digits_no_newline n)

theorem shift_items (k n : Nat) (p q : List Char) (l : List (List Char)) :
    shift (4 * k) (dbgItems (some n) p q l) = dbgItems (some (k + n)) p q (l.map (shift (4 * k))) := by
  cases l with
  | nil => rfl
  | cons x xs =>
    have e : ∀ m, shift (4 * k) (DSty.indent m) = DSty.indent m := fun m => shift_spaces _ _
    have e2 : ∀ m, List.replicate (4 * k) ' ' ++ DSty.indent m = DSty.indent (k + m) := by
      intro m; unfold DSty.indent; rw [List.replicate_append_replicate]; congr 1; ring
    have e3 : ∀ m r, List.replicate (4 * k) ' ' ++ (DSty.indent m ++ r) = DSty.indent (k + m) ++ r := by intro m r; rw [← List.append_assoc, e2]
    have ind : shift (4 * k) (xs.flatMap (fun y => DSty.sep (some n) ++ y)) = (xs.map (shift (4 * k))).flatMap (fun y => DSty.sep (some (k + n)) ++ y) := by
      induction xs with
      | nil => rfl
      | cons y ys ih => rw [List.flatMap_cons, List.map_cons, List.flatMap_cons, shift_append, ih, shift_append]; simp [DSty.sep, shift_cons, e, e2, Nat.add_assoc]
    simp only [dbgItems, shift_append, ind, List.map_cons, DSty.lead, DSty.last, shift_cons, e]
    simp [e2, Nat.add_assoc]

theorem shift_struct (k n : Nat) (name : String) (hn : '\n' ∉ name.toList) (fs : List (String × List Char)) (hf : ∀ f ∈ fs.map (·.1), '\n' ∉ f.toList) :
    shift (4 * k) (dbgStruct (some n) name fs) = dbgStruct (some (k + n)) name (fs.map fun f => (f.1, shift (4 * k) f.2)) := by
  have : (fs.map fun f => dbgEntry f.1.toList f.2).map (shift (4 * k)) = (fs.map fun f => (f.1, shift (4 * k) f.2)).map fun f => dbgEntry f.1.toList f.2 := by
    rw [List.map_map, List.map_map]
    refine List.map_congr_left fun f m => ?_
    have := hf f.1 (List.mem_map_of_mem m)
    simp [dbgEntry, shift_append, shift_plain this, shift_cons]
  simp only [dbgStruct, shift_append, shift_cons, shift_items, shift_plain hn, this]
  simp

theorem bracketed_pretty (p q pad : List Char) (l : List (List Char)) : dbgItems (some 0) p q (l.map (shift 4)) = bracketed true pad l := by
  cases l with
  | nil => rfl
  | cons x xs =>
    have ind : ∀ r : List Char, ((xs.map (shift 4)).flatMap (fun y => DSty.sep (some 0) ++ y)) ++ (',' :: '\n' :: r) =
        ',' :: '\n' :: ((xs.flatMap fun x => "    ".toList ++ shift 4 x ++ ",\n".toList) ++ r) := by
      induction xs with
      | nil => intro r; rfl
      | cons y ys ih => intro r; simp only [List.map_cons, List.flatMap_cons, List.append_assoc, ih]; simp [DSty.sep, DSty.indent, List.replicate]
    have := ind []
    simp only [dbgItems, bracketed, List.map_cons, DSty.lead, DSty.last, DSty.indent, List.append_assoc]
    rw [if_neg (by simp), show (',' :: '\n' :: List.replicate (4 * 0) ' ') = ',' :: '\n' :: [] from rfl, this]
    simp [List.replicate]

theorem bracketed_flat (pad : List Char) (l : List (List Char)) : dbgItems none pad pad l = bracketed false pad l := by
  cases l with
  | nil => rfl
  | cons x xs =>
    have ind : ∀ (x : List Char) xs, x ++ (xs.flatMap fun y => DSty.sep none ++ y) = ", ".toList.intercalate (x :: xs) := by
      intro x xs
      induction xs generalizing x with
      | nil => simp
      | cons y ys ih => rw [List.flatMap_cons, List.append_assoc, ih y, List.intercalate_cons_cons]; simp [DSty.sep]
    simp only [dbgItems, bracketed]
    rw [if_neg (by simp), if_neg (by simp), ← ind]
    simp [DSty.lead, DSty.last]

theorem structText_pretty (name : String) (fs : List (String × List Char)) (hf : ∀ f ∈ fs.map (·.1), '\n' ∉ f.toList) :
    structText true name fs = dbgStruct (some 0) name (fs.map fun f => (f.1, shift 4 f.2)) := by
  have : (fs.map fun f => (f.1, shift 4 f.2)).map (fun f => dbgEntry f.1.toList f.2) = (fs.map fun f => f.1.toList ++ ": ".toList ++ f.2).map (shift 4) := by
    rw [List.map_map, List.map_map]
    refine List.map_congr_left fun f m => ?_
    have := hf f.1 (List.mem_map_of_mem m)
    simp [dbgEntry, shift_append, shift_plain this, shift_cons]
  rw [dbgStruct, this, bracketed_pretty _ _ [' '], structText]
  simp

theorem structText_flat (name : String) (fs : List (String × List Char)) : structText false name fs = dbgStruct none name fs := by
  rw [dbgStruct, bracketed_flat, structText]
  simp [dbgEntry]

theorem nests_of_plain {B : Type} [Dbg B] (h : ∀ st st' (a : B) s, Dbg.text st a s → Dbg.text st' a s ∧ '\n' ∉ s) : Nests B := by
  intro n a s
  constructor
  · intro hs
    exact ⟨s, (h _ _ _ _ hs).1, (shift_plain (h _ (some 0) _ _ hs).2).symm⟩
  · rintro ⟨t, ht, rfl⟩
    rw [shift_plain (h _ (some 0) _ _ ht).2]
    exact (h _ _ _ _ ht).1

theorem nests_nat : Nests Nat := nests_of_plain fun _ _ _ _ h => ⟨h, h ▸ digits_no_newline _⟩

theorem forall₂_shift {α : Type} {P : DSty → α → List Char → Prop} (hP : ∀ n a s, P (some n) a s ↔ ∃ t, P (some 0) a t ∧ s = shift (4 * n) t) (n : Nat) :
    ∀ (l : List α) (ts : List (List Char)), List.Forall₂ (P (some n)) l ts ↔ ∃ us, List.Forall₂ (P (some 0)) l us ∧ ts = us.map (shift (4 * n))
  | [], ts => by simp [List.forall₂_nil_left_iff]
  | a :: l, ts => by
    rw [List.forall₂_cons_left_iff]
    constructor
    · rintro ⟨b, u, h1, h2, rfl⟩
      obtain ⟨t, h3, rfl⟩ := (hP _ _ _).1 h1
      obtain ⟨us, h4, rfl⟩ := (forall₂_shift hP n l u).1 h2
      exact ⟨t :: us, .cons h3 h4, rfl⟩
    · rintro ⟨us, h, rfl⟩
      cases h with
      | cons h1 h2 => exact ⟨_, _, (hP _ _ _).2 ⟨_, h1, rfl⟩, (forall₂_shift hP n l _).2 ⟨_, h2, rfl⟩, rfl⟩

theorem shift_brackets (k n : Nat) (o c : Char) (ho : o ≠ '\n') (hc : c ≠ '\n') (q : List Char) (l : List (List Char)) :
    shift (4 * k) (o :: dbgItems (some n) [] q l ++ [c]) = o :: dbgItems (some (k + n)) [] q (l.map (shift (4 * k))) ++ [c] := by
  simp only [shift_append, shift_cons, shift_items]
  simp [ho, hc]

theorem nests_list {T : Type} [Dbg T] (hT : Nests T) : Nests (List T) := by
  intro n l s
  show _ ↔ ∃ t, Dbg.text (some 0) l t ∧ s = shift (4 * n) t
  constructor
  · rintro ⟨ts, h, rfl⟩
    obtain ⟨us, h', rfl⟩ := (forall₂_shift hT _ _ _).1 h
    refine ⟨_, ⟨_, (forall₂_shift hT 1 _ _).2 ⟨us, h', rfl⟩, rfl⟩, ?_⟩
    rw [dbgList, dbgList, shift_brackets _ _ _ _ (by decide) (by decide)]
    simp [shift_shift, Nat.mul_add, Function.comp_def]
  · rintro ⟨_, ⟨ts, h, rfl⟩, rfl⟩
    obtain ⟨us, h', rfl⟩ := (forall₂_shift hT _ _ _).1 h
    refine ⟨_, (forall₂_shift hT (n + 1) _ _).2 ⟨us, h', rfl⟩, ?_⟩
    rw [dbgList, dbgList, shift_brackets _ _ _ _ (by decide) (by decide)]
    simp [shift_shift, Nat.mul_add, Function.comp_def]

theorem entry_shift {K V : Type} [Dbg K] [Dbg V] (hK : Nests K) (hV : Nests V) (n : Nat) (e : K × V) (s : List Char) :
    (∃ a b, Dbg.text (some n) e.1 a ∧ Dbg.text (some n) e.2 b ∧ s = dbgEntry a b) ↔
      ∃ t, (∃ a b, Dbg.text (some 0) e.1 a ∧ Dbg.text (some 0) e.2 b ∧ t = dbgEntry a b) ∧ s = shift (4 * n) t := by
  constructor
  · rintro ⟨a, b, h1, h2, rfl⟩
    obtain ⟨a, k1, rfl⟩ := (hK _ _ _).1 h1
    obtain ⟨b, k2, rfl⟩ := (hV _ _ _).1 h2
    exact ⟨_, ⟨a, b, k1, k2, rfl⟩, by simp [dbgEntry, shift_append, shift_cons]⟩
  · rintro ⟨_, ⟨a, b, h1, h2, rfl⟩, rfl⟩
    exact ⟨_, _, (hK n _ _).2 ⟨_, h1, rfl⟩, (hV n _ _).2 ⟨_, h2, rfl⟩, by simp [dbgEntry, shift_append, shift_cons]⟩

theorem nests_map {K V : Type} [Dbg K] [Dbg V] (hK : Nests K) (hV : Nests V) : Nests (HMap K V) := by
  have key := forall₂_shift (P := fun st (e : K × V) t => ∃ a b, Dbg.text st e.1 a ∧ Dbg.text st e.2 b ∧ t = dbgEntry a b) (fun n e s => entry_shift hK hV n e s)
  intro n l s
  show _ ↔ ∃ t, Dbg.text (some 0) l t ∧ s = shift (4 * n) t
  constructor
  · rintro ⟨o, ts, h, rfl⟩
    obtain ⟨us, h', rfl⟩ := (key _ _ _).1 h
    refine ⟨_, ⟨o, _, (key 1 _ _).2 ⟨us, h', rfl⟩, rfl⟩, ?_⟩
    rw [dbgMap, dbgMap, shift_brackets _ _ _ _ (by decide) (by decide)]
    simp [shift_shift, Nat.mul_add, Function.comp_def]
  · rintro ⟨_, ⟨o, ts, h, rfl⟩, rfl⟩
    obtain ⟨us, h', rfl⟩ := (key _ _ _).1 h
    refine ⟨o, _, (key (n + 1) _ _).2 ⟨us, h', rfl⟩, ?_⟩
    rw [dbgMap, dbgMap, shift_brackets _ _ _ _ (by decide) (by decide)]
    simp [shift_shift, Nat.mul_add, Function.comp_def]

/-- **C104 (lists).** A list of objects prints its elements between square brackets. -/
theorem C104_list {T : Type} [Dbg T] (hT : Nests T) : Nests (List T) ∧ ∀ (p : Bool) (l : List T) (s : List Char),
    Prints p l s ↔ ∃ ts, List.Forall₂ (Prints p) l ts ∧ s = "[".toList ++ bracketed p [] ts ++ "]".toList := by
  refine ⟨nests_list hT, fun p l s => ?_⟩
  cases p with
  | false =>
    show Dbg.text none l s ↔ _
    constructor
    · rintro ⟨ts, h, rfl⟩; exact ⟨ts, h, by rw [dbgList, bracketed_flat]; rfl⟩
    · rintro ⟨ts, h, rfl⟩; exact ⟨ts, h, by rw [dbgList, bracketed_flat]; rfl⟩
  | true =>
    show Dbg.text (some 0) l s ↔ _
    constructor
    · rintro ⟨ts, h, rfl⟩
      obtain ⟨us, h', rfl⟩ := (forall₂_shift hT _ _ _).1 h
      exact ⟨us, h', by rw [dbgList, ← bracketed_pretty [] []]; rfl⟩
    · rintro ⟨ts, h, rfl⟩
      exact ⟨_, (forall₂_shift hT 1 _ _).2 ⟨ts, h, rfl⟩, by rw [dbgList, ← bracketed_pretty [] []]; rfl⟩

/-- **C104 (hash maps).** A hash map prints its entries between braces, in some order. -/
theorem C104_map {K V : Type} [Dbg K] [Dbg V] (hK : Nests K) (hV : Nests V) : Nests (HMap K V) ∧ ∀ (p : Bool) (m : HMap K V) (s : List Char),
    Prints p m s ↔ ∃ (o : m.Order) (ts : List (List Char)),
      List.Forall₂ (fun e t => ∃ a b, Prints p e.1 a ∧ Prints p e.2 b ∧ t = a ++ ": ".toList ++ b) o.list ts ∧ s = "{".toList ++ bracketed p [] ts ++ "}".toList := by
  have e : ∀ a b : List Char, a ++ ": ".toList ++ b = dbgEntry a b := by intro a b; simp [dbgEntry]
  have key := forall₂_shift (P := fun st (e : K × V) t => ∃ a b, Dbg.text st e.1 a ∧ Dbg.text st e.2 b ∧ t = dbgEntry a b) (fun n e s => entry_shift hK hV n e s)
  refine ⟨nests_map hK hV, fun p m s => ?_⟩
  simp only [e]
  cases p with
  | false =>
    show Dbg.text none m s ↔ _
    constructor
    · rintro ⟨o, ts, h, rfl⟩; exact ⟨o, ts, h, by rw [dbgMap, bracketed_flat]; rfl⟩
    · rintro ⟨o, ts, h, rfl⟩; exact ⟨o, ts, h, by rw [dbgMap, bracketed_flat]; rfl⟩
  | true =>
    show Dbg.text (some 0) m s ↔ _
    constructor
    · rintro ⟨o, ts, h, rfl⟩
      obtain ⟨us, h', rfl⟩ := (key _ _ _).1 h
      exact ⟨o, us, h', by rw [dbgMap, ← bracketed_pretty [] []]; rfl⟩
    · rintro ⟨o, ts, h, rfl⟩
      exact ⟨o, _, (key 1 _ _).2 ⟨ts, h, rfl⟩, by rw [dbgMap, ← bracketed_pretty [] []]; rfl⟩

section
variable {T W O C : Type} [Dbg T] [Dbg W] [TypeName O] [Dbg C]

theorem layout_uniform (hT : Nests T) (p : Bool) (a : Uniform T) (s : List Char) : Prints p a s ↔ ∃ t0 t1 t2, Prints p a.low t0 ∧ Prints p a.high t1 ∧ Prints p a.step t2 ∧ s = structText p "Uniform" [("num", Nat.toDigits 10 a.num), ("low", t0), ("high", t1), ("step", t2)] := by
  cases p with
  | false =>
    constructor
    · rintro ⟨t0, t1, t2, h0, h1, h2, rfl⟩; exact ⟨t0, t1, t2, h0, h1, h2, (structText_flat _ _).symm⟩
    · rintro ⟨t0, t1, t2, h0, h1, h2, rfl⟩; exact ⟨t0, t1, t2, h0, h1, h2, structText_flat _ _⟩
  | true =>
  show Dbg.text (some 0) a s ↔ _
  constructor
  · rintro ⟨t0, t1, t2, h0, h1, h2, rfl⟩
    obtain ⟨t0', h0', rfl⟩ := (hT _ _ _).1 h0
    obtain ⟨t1', h1', rfl⟩ := (hT _ _ _).1 h1
    obtain ⟨t2', h2', rfl⟩ := (hT _ _ _).1 h2
    exact ⟨t0', t1', t2', h0', h1', h2', by rw [structText_pretty _ _ (by simp)]; simp [shift_digits]⟩
  · rintro ⟨t0, t1, t2, h0, h1, h2, rfl⟩
    exact ⟨_, _, _, (hT 1 _ _).2 ⟨_, h0, rfl⟩, (hT 1 _ _).2 ⟨_, h1, rfl⟩, (hT 1 _ _).2 ⟨_, h2, rfl⟩, by rw [structText_pretty _ _ (by simp)]; simp [shift_digits]⟩

theorem nests_uniform (hT : Nests T) : Nests (Uniform T) := by
  intro n a s
  show _ ↔ ∃ t, Dbg.text (some 0) a t ∧ s = shift (4 * n) t
  constructor
  · rintro ⟨t0, t1, t2, h0, h1, h2, rfl⟩
    obtain ⟨t0', h0', rfl⟩ := (hT _ _ _).1 h0
    obtain ⟨t1', h1', rfl⟩ := (hT _ _ _).1 h1
    obtain ⟨t2', h2', rfl⟩ := (hT _ _ _).1 h2
    exact ⟨_, ⟨_, _, _, (hT 1 _ _).2 ⟨_, h0', rfl⟩, (hT 1 _ _).2 ⟨_, h1', rfl⟩, (hT 1 _ _).2 ⟨_, h2', rfl⟩, rfl⟩, by rw [shift_struct _ _ _ (by decide) _ (by simp)]; simp [shift_shift, shift_digits, Nat.mul_add]⟩
  · rintro ⟨_, ⟨t0, t1, t2, h0, h1, h2, rfl⟩, rfl⟩
    obtain ⟨t0', h0', rfl⟩ := (hT _ _ _).1 h0
    obtain ⟨t1', h1', rfl⟩ := (hT _ _ _).1 h1
    obtain ⟨t2', h2', rfl⟩ := (hT _ _ _).1 h2
    exact ⟨_, _, _, (hT (n + 1) _ _).2 ⟨_, h0', rfl⟩, (hT (n + 1) _ _).2 ⟨_, h1', rfl⟩, (hT (n + 1) _ _).2 ⟨_, h2', rfl⟩, by rw [shift_struct _ _ _ (by decide) _ (by simp)]; simp [shift_shift, shift_digits, Nat.mul_add]⟩

/-- **C104 (`Uniform`).** -/
theorem C104_uniform (hT : Nests T) : Nests (Uniform T) ∧ ∀ (p : Bool) (a : Uniform T) (s : List Char), Prints p a s ↔ ∃ t0 t1 t2, Prints p a.low t0 ∧ Prints p a.high t1 ∧ Prints p a.step t2 ∧ s = structText p "Uniform" [("num", Nat.toDigits 10 a.num), ("low", t0), ("high", t1), ("step", t2)] :=
  ⟨nests_uniform hT, layout_uniform hT⟩

theorem layout_uniformNoFlow (hT : Nests T) (p : Bool) (a : UniformNoFlow T) (s : List Char) : Prints p a s ↔ ∃ t0, Prints p a.axis t0 ∧ s = structText p "UniformNoFlow" [("axis", t0)] := by
  cases p with
  | false =>
    constructor
    · rintro ⟨t0, h0, rfl⟩; exact ⟨t0, h0, (structText_flat _ _).symm⟩
    · rintro ⟨t0, h0, rfl⟩; exact ⟨t0, h0, structText_flat _ _⟩
  | true =>
  show Dbg.text (some 0) a s ↔ _
  constructor
  · rintro ⟨t0, h0, rfl⟩
    obtain ⟨t0', h0', rfl⟩ := ((nests_uniform hT) _ _ _).1 h0
    exact ⟨t0', h0', by rw [structText_pretty _ _ (by simp)]; simp [shift_digits]⟩
  · rintro ⟨t0, h0, rfl⟩
    exact ⟨_, ((nests_uniform hT) 1 _ _).2 ⟨_, h0, rfl⟩, by rw [structText_pretty _ _ (by simp)]; simp [shift_digits]⟩

theorem nests_uniformNoFlow (hT : Nests T) : Nests (UniformNoFlow T) := by
  intro n a s
  show _ ↔ ∃ t, Dbg.text (some 0) a t ∧ s = shift (4 * n) t
  constructor
  · rintro ⟨t0, h0, rfl⟩
    obtain ⟨t0', h0', rfl⟩ := ((nests_uniform hT) _ _ _).1 h0
    exact ⟨_, ⟨_, ((nests_uniform hT) 1 _ _).2 ⟨_, h0', rfl⟩, rfl⟩, by rw [shift_struct _ _ _ (by decide) _ (by simp)]; simp [shift_shift, shift_digits, Nat.mul_add]⟩
  · rintro ⟨_, ⟨t0, h0, rfl⟩, rfl⟩
    obtain ⟨t0', h0', rfl⟩ := ((nests_uniform hT) _ _ _).1 h0
    exact ⟨_, ((nests_uniform hT) (n + 1) _ _).2 ⟨_, h0', rfl⟩, by rw [shift_struct _ _ _ (by decide) _ (by simp)]; simp [shift_shift, shift_digits, Nat.mul_add]⟩

/-- **C104 (`UniformNoFlow`).** -/
theorem C104_uniformNoFlow (hT : Nests T) : Nests (UniformNoFlow T) ∧ ∀ (p : Bool) (a : UniformNoFlow T) (s : List Char), Prints p a s ↔ ∃ t0, Prints p a.axis t0 ∧ s = structText p "UniformNoFlow" [("axis", t0)] :=
  ⟨nests_uniformNoFlow hT, layout_uniformNoFlow hT⟩

theorem layout_uniformCyclic (hT : Nests T) (p : Bool) (a : UniformCyclic T) (s : List Char) : Prints p a s ↔ ∃ t0, Prints p a.axis t0 ∧ s = structText p "UniformCyclic" [("axis", t0)] := by
  cases p with
  | false =>
    constructor
    · rintro ⟨t0, h0, rfl⟩; exact ⟨t0, h0, (structText_flat _ _).symm⟩
    · rintro ⟨t0, h0, rfl⟩; exact ⟨t0, h0, structText_flat _ _⟩
  | true =>
  show Dbg.text (some 0) a s ↔ _
  constructor
  · rintro ⟨t0, h0, rfl⟩
    obtain ⟨t0', h0', rfl⟩ := ((nests_uniformNoFlow hT) _ _ _).1 h0
    exact ⟨t0', h0', by rw [structText_pretty _ _ (by simp)]; simp [shift_digits]⟩
  · rintro ⟨t0, h0, rfl⟩
    exact ⟨_, ((nests_uniformNoFlow hT) 1 _ _).2 ⟨_, h0, rfl⟩, by rw [structText_pretty _ _ (by simp)]; simp [shift_digits]⟩

theorem nests_uniformCyclic (hT : Nests T) : Nests (UniformCyclic T) := by
  intro n a s
  show _ ↔ ∃ t, Dbg.text (some 0) a t ∧ s = shift (4 * n) t
  constructor
  · rintro ⟨t0, h0, rfl⟩
    obtain ⟨t0', h0', rfl⟩ := ((nests_uniformNoFlow hT) _ _ _).1 h0
    exact ⟨_, ⟨_, ((nests_uniformNoFlow hT) 1 _ _).2 ⟨_, h0', rfl⟩, rfl⟩, by rw [shift_struct _ _ _ (by decide) _ (by simp)]; simp [shift_shift, shift_digits, Nat.mul_add]⟩
  · rintro ⟨_, ⟨t0, h0, rfl⟩, rfl⟩
    obtain ⟨t0', h0', rfl⟩ := ((nests_uniformNoFlow hT) _ _ _).1 h0
    exact ⟨_, ((nests_uniformNoFlow hT) (n + 1) _ _).2 ⟨_, h0', rfl⟩, by rw [shift_struct _ _ _ (by decide) _ (by simp)]; simp [shift_shift, shift_digits, Nat.mul_add]⟩

/-- **C104 (`UniformCyclic`).** -/
theorem C104_uniformCyclic (hT : Nests T) : Nests (UniformCyclic T) ∧ ∀ (p : Bool) (a : UniformCyclic T) (s : List Char), Prints p a s ↔ ∃ t0, Prints p a.axis t0 ∧ s = structText p "UniformCyclic" [("axis", t0)] :=
  ⟨nests_uniformCyclic hT, layout_uniformCyclic hT⟩

theorem layout_variable (hT : Nests T) (p : Bool) (a : Variable T) (s : List Char) : Prints p a s ↔ ∃ t0, Prints p a.binEdges t0 ∧ s = structText p "Variable" [("bin_edges", t0)] := by
  cases p with
  | false =>
    constructor
    · rintro ⟨t0, h0, rfl⟩; exact ⟨t0, h0, (structText_flat _ _).symm⟩
    · rintro ⟨t0, h0, rfl⟩; exact ⟨t0, h0, structText_flat _ _⟩
  | true =>
  show Dbg.text (some 0) a s ↔ _
  constructor
  · rintro ⟨t0, h0, rfl⟩
    obtain ⟨t0', h0', rfl⟩ := ((nests_list hT) _ _ _).1 h0
    exact ⟨t0', h0', by rw [structText_pretty _ _ (by simp)]; simp [shift_digits]⟩
  · rintro ⟨t0, h0, rfl⟩
    exact ⟨_, ((nests_list hT) 1 _ _).2 ⟨_, h0, rfl⟩, by rw [structText_pretty _ _ (by simp)]; simp [shift_digits]⟩

theorem nests_variable (hT : Nests T) : Nests (Variable T) := by
  intro n a s
  show _ ↔ ∃ t, Dbg.text (some 0) a t ∧ s = shift (4 * n) t
  constructor
  · rintro ⟨t0, h0, rfl⟩
    obtain ⟨t0', h0', rfl⟩ := ((nests_list hT) _ _ _).1 h0
    exact ⟨_, ⟨_, ((nests_list hT) 1 _ _).2 ⟨_, h0', rfl⟩, rfl⟩, by rw [shift_struct _ _ _ (by decide) _ (by simp)]; simp [shift_shift, shift_digits, Nat.mul_add]⟩
  · rintro ⟨_, ⟨t0, h0, rfl⟩, rfl⟩
    obtain ⟨t0', h0', rfl⟩ := ((nests_list hT) _ _ _).1 h0
    exact ⟨_, ((nests_list hT) (n + 1) _ _).2 ⟨_, h0', rfl⟩, by rw [shift_struct _ _ _ (by decide) _ (by simp)]; simp [shift_shift, shift_digits, Nat.mul_add]⟩

/-- **C104 (`Variable`).** -/
theorem C104_variable (hT : Nests T) : Nests (Variable T) ∧ ∀ (p : Bool) (a : Variable T) (s : List Char), Prints p a s ↔ ∃ t0, Prints p a.binEdges t0 ∧ s = structText p "Variable" [("bin_edges", t0)] :=
  ⟨nests_variable hT, layout_variable hT⟩

theorem layout_variableNoFlow (hT : Nests T) (p : Bool) (a : VariableNoFlow T) (s : List Char) : Prints p a s ↔ ∃ t0, Prints p a.axis t0 ∧ s = structText p "VariableNoFlow" [("axis", t0)] := by
  cases p with
  | false =>
    constructor
    · rintro ⟨t0, h0, rfl⟩; exact ⟨t0, h0, (structText_flat _ _).symm⟩
    · rintro ⟨t0, h0, rfl⟩; exact ⟨t0, h0, structText_flat _ _⟩
  | true =>
  show Dbg.text (some 0) a s ↔ _
  constructor
  · rintro ⟨t0, h0, rfl⟩
    obtain ⟨t0', h0', rfl⟩ := ((nests_variable hT) _ _ _).1 h0
    exact ⟨t0', h0', by rw [structText_pretty _ _ (by simp)]; simp [shift_digits]⟩
  · rintro ⟨t0, h0, rfl⟩
    exact ⟨_, ((nests_variable hT) 1 _ _).2 ⟨_, h0, rfl⟩, by rw [structText_pretty _ _ (by simp)]; simp [shift_digits]⟩

theorem nests_variableNoFlow (hT : Nests T) : Nests (VariableNoFlow T) := by
  intro n a s
  show _ ↔ ∃ t, Dbg.text (some 0) a t ∧ s = shift (4 * n) t
  constructor
  · rintro ⟨t0, h0, rfl⟩
    obtain ⟨t0', h0', rfl⟩ := ((nests_variable hT) _ _ _).1 h0
    exact ⟨_, ⟨_, ((nests_variable hT) 1 _ _).2 ⟨_, h0', rfl⟩, rfl⟩, by rw [shift_struct _ _ _ (by decide) _ (by simp)]; simp [shift_shift, shift_digits, Nat.mul_add]⟩
  · rintro ⟨_, ⟨t0, h0, rfl⟩, rfl⟩
    obtain ⟨t0', h0', rfl⟩ := ((nests_variable hT) _ _ _).1 h0
    exact ⟨_, ((nests_variable hT) (n + 1) _ _).2 ⟨_, h0', rfl⟩, by rw [shift_struct _ _ _ (by decide) _ (by simp)]; simp [shift_shift, shift_digits, Nat.mul_add]⟩

/-- **C104 (`VariableNoFlow`).** -/
theorem C104_variableNoFlow (hT : Nests T) : Nests (VariableNoFlow T) ∧ ∀ (p : Bool) (a : VariableNoFlow T) (s : List Char), Prints p a s ↔ ∃ t0, Prints p a.axis t0 ∧ s = structText p "VariableNoFlow" [("axis", t0)] :=
  ⟨nests_variableNoFlow hT, layout_variableNoFlow hT⟩

theorem layout_variableCyclic (hT : Nests T) (p : Bool) (a : VariableCyclic T) (s : List Char) : Prints p a s ↔ ∃ t0, Prints p a.axis t0 ∧ s = structText p "VariableCyclic" [("axis", t0)] := by
  cases p with
  | false =>
    constructor
    · rintro ⟨t0, h0, rfl⟩; exact ⟨t0, h0, (structText_flat _ _).symm⟩
    · rintro ⟨t0, h0, rfl⟩; exact ⟨t0, h0, structText_flat _ _⟩
  | true =>
  show Dbg.text (some 0) a s ↔ _
  constructor
  · rintro ⟨t0, h0, rfl⟩
    obtain ⟨t0', h0', rfl⟩ := ((nests_variableNoFlow hT) _ _ _).1 h0
    exact ⟨t0', h0', by rw [structText_pretty _ _ (by simp)]; simp [shift_digits]⟩
  · rintro ⟨t0, h0, rfl⟩
    exact ⟨_, ((nests_variableNoFlow hT) 1 _ _).2 ⟨_, h0, rfl⟩, by rw [structText_pretty _ _ (by simp)]; simp [shift_digits]⟩

theorem nests_variableCyclic (hT : Nests T) : Nests (VariableCyclic T) := by
  intro n a s
  show _ ↔ ∃ t, Dbg.text (some 0) a t ∧ s = shift (4 * n) t
  constructor
  · rintro ⟨t0, h0, rfl⟩
    obtain ⟨t0', h0', rfl⟩ := ((nests_variableNoFlow hT) _ _ _).1 h0
    exact ⟨_, ⟨_, ((nests_variableNoFlow hT) 1 _ _).2 ⟨_, h0', rfl⟩, rfl⟩, by rw [shift_struct _ _ _ (by decide) _ (by simp)]; simp [shift_shift, shift_digits, Nat.mul_add]⟩
  · rintro ⟨_, ⟨t0, h0, rfl⟩, rfl⟩
    obtain ⟨t0', h0', rfl⟩ := ((nests_variableNoFlow hT) _ _ _).1 h0
    exact ⟨_, ((nests_variableNoFlow hT) (n + 1) _ _).2 ⟨_, h0', rfl⟩, by rw [shift_struct _ _ _ (by decide) _ (by simp)]; simp [shift_shift, shift_digits, Nat.mul_add]⟩

/-- **C104 (`VariableCyclic`).** -/
theorem C104_variableCyclic (hT : Nests T) : Nests (VariableCyclic T) ∧ ∀ (p : Bool) (a : VariableCyclic T) (s : List Char), Prints p a s ↔ ∃ t0, Prints p a.axis t0 ∧ s = structText p "VariableCyclic" [("axis", t0)] :=
  ⟨nests_variableCyclic hT, layout_variableCyclic hT⟩

theorem layout_category (hT : Nests T) (p : Bool) (a : Category T) (s : List Char) : Prints p a s ↔ ∃ t0 t1, Prints p a.mapTToIndex t0 ∧ Prints p a.mapIndexToT t1 ∧ s = structText p "Category" [("map_t_to_index", t0), ("map_index_to_t", t1)] := by
  cases p with
  | false =>
    constructor
    · rintro ⟨t0, t1, h0, h1, rfl⟩; exact ⟨t0, t1, h0, h1, (structText_flat _ _).symm⟩
    · rintro ⟨t0, t1, h0, h1, rfl⟩; exact ⟨t0, t1, h0, h1, structText_flat _ _⟩
  | true =>
  show Dbg.text (some 0) a s ↔ _
  constructor
  · rintro ⟨t0, t1, h0, h1, rfl⟩
    obtain ⟨t0', h0', rfl⟩ := ((nests_map hT nests_nat) _ _ _).1 h0
    obtain ⟨t1', h1', rfl⟩ := ((nests_map nests_nat hT) _ _ _).1 h1
    exact ⟨t0', t1', h0', h1', by rw [structText_pretty _ _ (by simp)]; simp [shift_digits]⟩
  · rintro ⟨t0, t1, h0, h1, rfl⟩
    exact ⟨_, _, ((nests_map hT nests_nat) 1 _ _).2 ⟨_, h0, rfl⟩, ((nests_map nests_nat hT) 1 _ _).2 ⟨_, h1, rfl⟩, by rw [structText_pretty _ _ (by simp)]; simp [shift_digits]⟩

theorem nests_category (hT : Nests T) : Nests (Category T) := by
  intro n a s
  show _ ↔ ∃ t, Dbg.text (some 0) a t ∧ s = shift (4 * n) t
  constructor
  · rintro ⟨t0, t1, h0, h1, rfl⟩
    obtain ⟨t0', h0', rfl⟩ := ((nests_map hT nests_nat) _ _ _).1 h0
    obtain ⟨t1', h1', rfl⟩ := ((nests_map nests_nat hT) _ _ _).1 h1
    exact ⟨_, ⟨_, _, ((nests_map hT nests_nat) 1 _ _).2 ⟨_, h0', rfl⟩, ((nests_map nests_nat hT) 1 _ _).2 ⟨_, h1', rfl⟩, rfl⟩, by rw [shift_struct _ _ _ (by decide) _ (by simp)]; simp [shift_shift, shift_digits, Nat.mul_add]⟩
  · rintro ⟨_, ⟨t0, t1, h0, h1, rfl⟩, rfl⟩
    obtain ⟨t0', h0', rfl⟩ := ((nests_map hT nests_nat) _ _ _).1 h0
    obtain ⟨t1', h1', rfl⟩ := ((nests_map nests_nat hT) _ _ _).1 h1
    exact ⟨_, _, ((nests_map hT nests_nat) (n + 1) _ _).2 ⟨_, h0', rfl⟩, ((nests_map nests_nat hT) (n + 1) _ _).2 ⟨_, h1', rfl⟩, by rw [shift_struct _ _ _ (by decide) _ (by simp)]; simp [shift_shift, shift_digits, Nat.mul_add]⟩

/-- **C104 (`Category`).** -/
theorem C104_category (hT : Nests T) : Nests (Category T) ∧ ∀ (p : Bool) (a : Category T) (s : List Char), Prints p a s ↔ ∃ t0 t1, Prints p a.mapTToIndex t0 ∧ Prints p a.mapIndexToT t1 ∧ s = structText p "Category" [("map_t_to_index", t0), ("map_index_to_t", t1)] :=
  ⟨nests_category hT, layout_category hT⟩

theorem layout_categoryNoFlow (hT : Nests T) (p : Bool) (a : CategoryNoFlow T) (s : List Char) : Prints p a s ↔ ∃ t0, Prints p a.axis t0 ∧ s = structText p "CategoryNoFlow" [("axis", t0)] := by
  cases p with
  | false =>
    constructor
    · rintro ⟨t0, h0, rfl⟩; exact ⟨t0, h0, (structText_flat _ _).symm⟩
    · rintro ⟨t0, h0, rfl⟩; exact ⟨t0, h0, structText_flat _ _⟩
  | true =>
  show Dbg.text (some 0) a s ↔ _
  constructor
  · rintro ⟨t0, h0, rfl⟩
    obtain ⟨t0', h0', rfl⟩ := ((nests_category hT) _ _ _).1 h0
    exact ⟨t0', h0', by rw [structText_pretty _ _ (by simp)]; simp [shift_digits]⟩
  · rintro ⟨t0, h0, rfl⟩
    exact ⟨_, ((nests_category hT) 1 _ _).2 ⟨_, h0, rfl⟩, by rw [structText_pretty _ _ (by simp)]; simp [shift_digits]⟩

theorem nests_categoryNoFlow (hT : Nests T) : Nests (CategoryNoFlow T) := by
  intro n a s
  show _ ↔ ∃ t, Dbg.text (some 0) a t ∧ s = shift (4 * n) t
  constructor
  · rintro ⟨t0, h0, rfl⟩
    obtain ⟨t0', h0', rfl⟩ := ((nests_category hT) _ _ _).1 h0
    exact ⟨_, ⟨_, ((nests_category hT) 1 _ _).2 ⟨_, h0', rfl⟩, rfl⟩, by rw [shift_struct _ _ _ (by decide) _ (by simp)]; simp [shift_shift, shift_digits, Nat.mul_add]⟩
  · rintro ⟨_, ⟨t0, h0, rfl⟩, rfl⟩
    obtain ⟨t0', h0', rfl⟩ := ((nests_category hT) _ _ _).1 h0
    exact ⟨_, ((nests_category hT) (n + 1) _ _).2 ⟨_, h0', rfl⟩, by rw [shift_struct _ _ _ (by decide) _ (by simp)]; simp [shift_shift, shift_digits, Nat.mul_add]⟩

/-- **C104 (`CategoryNoFlow`).** -/
theorem C104_categoryNoFlow (hT : Nests T) : Nests (CategoryNoFlow T) ∧ ∀ (p : Bool) (a : CategoryNoFlow T) (s : List Char), Prints p a s ↔ ∃ t0, Prints p a.axis t0 ∧ s = structText p "CategoryNoFlow" [("axis", t0)] :=
  ⟨nests_categoryNoFlow hT, layout_categoryNoFlow hT⟩

theorem layout_sum (hT : Nests T) (p : Bool) (a : Sum T) (s : List Char) : Prints p a s ↔ ∃ t0, Prints p a.sum t0 ∧ s = structText p "Sum" [("sum", t0)] := by
  cases p with
  | false =>
    constructor
    · rintro ⟨t0, h0, rfl⟩; exact ⟨t0, h0, (structText_flat _ _).symm⟩
    · rintro ⟨t0, h0, rfl⟩; exact ⟨t0, h0, structText_flat _ _⟩
  | true =>
  show Dbg.text (some 0) a s ↔ _
  constructor
  · rintro ⟨t0, h0, rfl⟩
    obtain ⟨t0', h0', rfl⟩ := (hT _ _ _).1 h0
    exact ⟨t0', h0', by rw [structText_pretty _ _ (by simp)]; simp [shift_digits]⟩
  · rintro ⟨t0, h0, rfl⟩
    exact ⟨_, (hT 1 _ _).2 ⟨_, h0, rfl⟩, by rw [structText_pretty _ _ (by simp)]; simp [shift_digits]⟩

theorem nests_sum (hT : Nests T) : Nests (Sum T) := by
  intro n a s
  show _ ↔ ∃ t, Dbg.text (some 0) a t ∧ s = shift (4 * n) t
  constructor
  · rintro ⟨t0, h0, rfl⟩
    obtain ⟨t0', h0', rfl⟩ := (hT _ _ _).1 h0
    exact ⟨_, ⟨_, (hT 1 _ _).2 ⟨_, h0', rfl⟩, rfl⟩, by rw [shift_struct _ _ _ (by decide) _ (by simp)]; simp [shift_shift, shift_digits, Nat.mul_add]⟩
  · rintro ⟨_, ⟨t0, h0, rfl⟩, rfl⟩
    obtain ⟨t0', h0', rfl⟩ := (hT _ _ _).1 h0
    exact ⟨_, (hT (n + 1) _ _).2 ⟨_, h0', rfl⟩, by rw [shift_struct _ _ _ (by decide) _ (by simp)]; simp [shift_shift, shift_digits, Nat.mul_add]⟩

/-- **C104 (`Sum`).** -/
theorem C104_sum (hT : Nests T) : Nests (Sum T) ∧ ∀ (p : Bool) (a : Sum T) (s : List Char), Prints p a s ↔ ∃ t0, Prints p a.sum t0 ∧ s = structText p "Sum" [("sum", t0)] :=
  ⟨nests_sum hT, layout_sum hT⟩

theorem layout_weightedSum (hT : Nests T) (p : Bool) (a : WeightedSum T) (s : List Char) : Prints p a s ↔ ∃ t0 t1, Prints p a.sumw t0 ∧ Prints p a.sumw2 t1 ∧ s = structText p "WeightedSum" [("sumw", t0), ("sumw2", t1)] := by
  cases p with
  | false =>
    constructor
    · rintro ⟨t0, t1, h0, h1, rfl⟩; exact ⟨t0, t1, h0, h1, (structText_flat _ _).symm⟩
    · rintro ⟨t0, t1, h0, h1, rfl⟩; exact ⟨t0, t1, h0, h1, structText_flat _ _⟩
  | true =>
  show Dbg.text (some 0) a s ↔ _
  constructor
  · rintro ⟨t0, t1, h0, h1, rfl⟩
    obtain ⟨t0', h0', rfl⟩ := (hT _ _ _).1 h0
    obtain ⟨t1', h1', rfl⟩ := (hT _ _ _).1 h1
    exact ⟨t0', t1', h0', h1', by rw [structText_pretty _ _ (by simp)]; simp [shift_digits]⟩
  · rintro ⟨t0, t1, h0, h1, rfl⟩
    exact ⟨_, _, (hT 1 _ _).2 ⟨_, h0, rfl⟩, (hT 1 _ _).2 ⟨_, h1, rfl⟩, by rw [structText_pretty _ _ (by simp)]; simp [shift_digits]⟩

theorem nests_weightedSum (hT : Nests T) : Nests (WeightedSum T) := by
  intro n a s
  show _ ↔ ∃ t, Dbg.text (some 0) a t ∧ s = shift (4 * n) t
  constructor
  · rintro ⟨t0, t1, h0, h1, rfl⟩
    obtain ⟨t0', h0', rfl⟩ := (hT _ _ _).1 h0
    obtain ⟨t1', h1', rfl⟩ := (hT _ _ _).1 h1
    exact ⟨_, ⟨_, _, (hT 1 _ _).2 ⟨_, h0', rfl⟩, (hT 1 _ _).2 ⟨_, h1', rfl⟩, rfl⟩, by rw [shift_struct _ _ _ (by decide) _ (by simp)]; simp [shift_shift, shift_digits, Nat.mul_add]⟩
  · rintro ⟨_, ⟨t0, t1, h0, h1, rfl⟩, rfl⟩
    obtain ⟨t0', h0', rfl⟩ := (hT _ _ _).1 h0
    obtain ⟨t1', h1', rfl⟩ := (hT _ _ _).1 h1
    exact ⟨_, _, (hT (n + 1) _ _).2 ⟨_, h0', rfl⟩, (hT (n + 1) _ _).2 ⟨_, h1', rfl⟩, by rw [shift_struct _ _ _ (by decide) _ (by simp)]; simp [shift_shift, shift_digits, Nat.mul_add]⟩

/-- **C104 (`WeightedSum`).** -/
theorem C104_weightedSum (hT : Nests T) : Nests (WeightedSum T) ∧ ∀ (p : Bool) (a : WeightedSum T) (s : List Char), Prints p a s ↔ ∃ t0 t1, Prints p a.sumw t0 ∧ Prints p a.sumw2 t1 ∧ s = structText p "WeightedSum" [("sumw", t0), ("sumw2", t1)] :=
  ⟨nests_weightedSum hT, layout_weightedSum hT⟩

theorem nests_sval (hT : Nests T) : Nests (SingleValueBinInterval T) := by
  intro n a s
  show _ ↔ ∃ t, Dbg.text (some 0) a t ∧ s = shift (4 * n) t
  cases a with
  | Overflow =>
    have e : shift (4 * n) "Overflow".toList = "Overflow".toList := shift_plain (by decide)
    constructor
    · rintro rfl; exact ⟨_, rfl, e.symm⟩
    · rintro ⟨_, rfl, rfl⟩; exact e
  | Bin v =>
    constructor
    · rintro ⟨t0, h0, rfl⟩
      obtain ⟨t0', h0', rfl⟩ := (hT _ _ _).1 h0
      exact ⟨_, ⟨_, (hT 1 _ _).2 ⟨_, h0', rfl⟩, rfl⟩, by rw [shift_struct _ _ _ (by decide) _ (by simp)]; simp [shift_shift, Nat.mul_add]⟩
    · rintro ⟨_, ⟨t0, h0, rfl⟩, rfl⟩
      obtain ⟨t0', h0', rfl⟩ := (hT _ _ _).1 h0
      exact ⟨_, (hT (n + 1) _ _).2 ⟨_, h0', rfl⟩, by rw [shift_struct _ _ _ (by decide) _ (by simp)]; simp [shift_shift, Nat.mul_add]⟩

theorem nests_binInterval (hT : Nests T) : Nests (BinInterval T) := by
  intro n a s
  show _ ↔ ∃ t, Dbg.text (some 0) a t ∧ s = shift (4 * n) t
  cases a with
  | Underflow v =>
    constructor
    · rintro ⟨t0, h0, rfl⟩
      obtain ⟨t0', h0', rfl⟩ := (hT _ _ _).1 h0
      exact ⟨_, ⟨_, (hT 1 _ _).2 ⟨_, h0', rfl⟩, rfl⟩, by rw [shift_struct _ _ _ (by decide) _ (by simp)]; simp [shift_shift, Nat.mul_add]⟩
    · rintro ⟨_, ⟨t0, h0, rfl⟩, rfl⟩
      obtain ⟨t0', h0', rfl⟩ := (hT _ _ _).1 h0
      exact ⟨_, (hT (n + 1) _ _).2 ⟨_, h0', rfl⟩, by rw [shift_struct _ _ _ (by decide) _ (by simp)]; simp [shift_shift, Nat.mul_add]⟩
  | Overflow v =>
    constructor
    · rintro ⟨t0, h0, rfl⟩
      obtain ⟨t0', h0', rfl⟩ := (hT _ _ _).1 h0
      exact ⟨_, ⟨_, (hT 1 _ _).2 ⟨_, h0', rfl⟩, rfl⟩, by rw [shift_struct _ _ _ (by decide) _ (by simp)]; simp [shift_shift, Nat.mul_add]⟩
    · rintro ⟨_, ⟨t0, h0, rfl⟩, rfl⟩
      obtain ⟨t0', h0', rfl⟩ := (hT _ _ _).1 h0
      exact ⟨_, (hT (n + 1) _ _).2 ⟨_, h0', rfl⟩, by rw [shift_struct _ _ _ (by decide) _ (by simp)]; simp [shift_shift, Nat.mul_add]⟩
  | Bin v w =>
    constructor
    · rintro ⟨t0, t1, h0, h1, rfl⟩
      obtain ⟨t0', h0', rfl⟩ := (hT _ _ _).1 h0
      obtain ⟨t1', h1', rfl⟩ := (hT _ _ _).1 h1
      exact ⟨_, ⟨_, _, (hT 1 _ _).2 ⟨_, h0', rfl⟩, (hT 1 _ _).2 ⟨_, h1', rfl⟩, rfl⟩, by rw [shift_struct _ _ _ (by decide) _ (by simp)]; simp [shift_shift, Nat.mul_add]⟩
    · rintro ⟨_, ⟨t0, t1, h0, h1, rfl⟩, rfl⟩
      obtain ⟨t0', h0', rfl⟩ := (hT _ _ _).1 h0
      obtain ⟨t1', h1', rfl⟩ := (hT _ _ _).1 h1
      exact ⟨_, _, (hT (n + 1) _ _).2 ⟨_, h0', rfl⟩, (hT (n + 1) _ _).2 ⟨_, h1', rfl⟩, by rw [shift_struct _ _ _ (by decide) _ (by simp)]; simp [shift_shift, Nat.mul_add]⟩

theorem one_field (hT : Nests T) (p : Bool) (name f : String) (hf : '\n' ∉ f.toList) (v : T) (s : List Char) :
    (∃ t, Dbg.text (DSty.inner (if p then some 0 else none)) v t ∧ s = dbgStruct (if p then some 0 else none) name [(f, t)]) ↔ ∃ t, Prints p v t ∧ s = structText p name [(f, t)] := by
  cases p with
  | false =>
    constructor
    · rintro ⟨t, h, rfl⟩; exact ⟨t, h, (structText_flat _ _).symm⟩
    · rintro ⟨t, h, rfl⟩; exact ⟨t, h, structText_flat _ _⟩
  | true =>
    constructor
    · rintro ⟨t, h, rfl⟩
      obtain ⟨t0', h0', rfl⟩ := (hT 1 _ _).1 h
      exact ⟨_, h0', by rw [structText_pretty _ _ (by simpa using hf)]; simp⟩
    · rintro ⟨t, h, rfl⟩
      exact ⟨_, (hT 1 _ _).2 ⟨_, h, rfl⟩, by rw [structText_pretty _ _ (by simpa using hf)]; simp⟩

theorem layout_binInterval (hT : Nests T) (p : Bool) (s : List Char) : (∀ v : T, Prints p (BinInterval.Underflow v) s ↔ ∃ t, Prints p v t ∧ s = structText p "Underflow" [("end", t)]) ∧
    (∀ v : T, Prints p (BinInterval.Overflow v) s ↔ ∃ t, Prints p v t ∧ s = structText p "Overflow" [("start", t)]) ∧
    ∀ v w : T, Prints p (BinInterval.Bin v w) s ↔ ∃ t u, Prints p v t ∧ Prints p w u ∧ s = structText p "Bin" [("start", t), ("end", u)] := by
  refine ⟨fun v => one_field hT p _ _ (by decide) v s, fun v => one_field hT p _ _ (by decide) v s, fun v w => ?_⟩
  cases p with
  | false =>
    constructor
    · rintro ⟨t0, t1, h0, h1, rfl⟩; exact ⟨t0, t1, h0, h1, (structText_flat _ _).symm⟩
    · rintro ⟨t0, t1, h0, h1, rfl⟩; exact ⟨t0, t1, h0, h1, structText_flat _ _⟩
  | true =>
    show Dbg.text (some 0) _ s ↔ _
    constructor
    · rintro ⟨t0, t1, h0, h1, rfl⟩
      obtain ⟨t0', h0', rfl⟩ := (hT _ _ _).1 h0
      obtain ⟨t1', h1', rfl⟩ := (hT _ _ _).1 h1
      exact ⟨_, _, h0', h1', by rw [structText_pretty _ _ (by simp)]; simp⟩
    · rintro ⟨t0, t1, h0, h1, rfl⟩
      exact ⟨_, _, (hT 1 _ _).2 ⟨_, h0, rfl⟩, (hT 1 _ _).2 ⟨_, h1, rfl⟩, by rw [structText_pretty _ _ (by simp)]; simp⟩

theorem layout_sval (hT : Nests T) (p : Bool) (s : List Char) : (Prints p (SingleValueBinInterval.Overflow : SingleValueBinInterval T) s ↔ s = "Overflow".toList) ∧
    ∀ v : T, Prints p (SingleValueBinInterval.Bin v) s ↔ ∃ t, Prints p v t ∧ s = structText p "Bin" [("value", t)] :=
  ⟨Iff.rfl, fun v => one_field hT p _ _ (by decide) v s⟩

/-- **C104 (the bins of axes of numbers).** -/
theorem C104_bins (hT : Nests T) : Nests (BinInterval T) ∧ ∀ (p : Bool) (s : List Char),
    (∀ v : T, Prints p (BinInterval.Underflow v) s ↔ ∃ t, Prints p v t ∧ s = structText p "Underflow" [("end", t)]) ∧
    (∀ v : T, Prints p (BinInterval.Overflow v) s ↔ ∃ t, Prints p v t ∧ s = structText p "Overflow" [("start", t)]) ∧
    ∀ v w : T, Prints p (BinInterval.Bin v w) s ↔ ∃ t u, Prints p v t ∧ Prints p w u ∧ s = structText p "Bin" [("start", t), ("end", u)] :=
  ⟨nests_binInterval hT, layout_binInterval hT⟩

/-- **C104 (the bins of category axes).** -/
theorem C104_category_bins (hT : Nests T) : Nests (SingleValueBinInterval T) ∧ ∀ (p : Bool) (s : List Char),
    (Prints p (SingleValueBinInterval.Overflow : SingleValueBinInterval T) s ↔ s = "Overflow".toList) ∧
    ∀ v : T, Prints p (SingleValueBinInterval.Bin v) s ↔ ∃ t, Prints p v t ∧ s = structText p "Bin" [("value", t)] :=
  ⟨nests_sval hT, layout_sval hT⟩


theorem layout_mean (hT : Nests T) (hC : Nests C) (hO : '\n' ∉ (TypeName.name O).toList) (p : Bool) (a : Mean T O C) (s : List Char) : Prints p a s ↔ ∃ t0 t1 t2, Prints p a.sumw t0 ∧ Prints p a.sumw2 t1 ∧ Prints p a.count t2 ∧ s = structText p "Mean" [("sumw", t0), ("sumw2", t1), ("count", t2), ("phantom_output_type", ("PhantomData<" ++ TypeName.name O ++ ">").toList)] := by
  cases p with
  | false =>
    constructor
    · rintro ⟨t0, t1, t2, h0, h1, h2, rfl⟩; exact ⟨t0, t1, t2, h0, h1, h2, (structText_flat _ _).symm⟩
    · rintro ⟨t0, t1, t2, h0, h1, h2, rfl⟩; exact ⟨t0, t1, t2, h0, h1, h2, structText_flat _ _⟩
  | true =>
  show Dbg.text (some 0) a s ↔ _
  constructor
  · rintro ⟨t0, t1, t2, h0, h1, h2, rfl⟩
    obtain ⟨t0', h0', rfl⟩ := (hT _ _ _).1 h0
    obtain ⟨t1', h1', rfl⟩ := (hT _ _ _).1 h1
    obtain ⟨t2', h2', rfl⟩ := (hC _ _ _).1 h2
    exact ⟨t0', t1', t2', h0', h1', h2', by rw [structText_pretty _ _ (by simp)]; simp [shift_digits, phantomText, shift_append, shift_cons, shift_plain hO]⟩
  · rintro ⟨t0, t1, t2, h0, h1, h2, rfl⟩
    exact ⟨_, _, _, (hT 1 _ _).2 ⟨_, h0, rfl⟩, (hT 1 _ _).2 ⟨_, h1, rfl⟩, (hC 1 _ _).2 ⟨_, h2, rfl⟩, by rw [structText_pretty _ _ (by simp)]; simp [shift_digits, phantomText, shift_append, shift_cons, shift_plain hO]⟩

theorem nests_mean (hT : Nests T) (hC : Nests C) (hO : '\n' ∉ (TypeName.name O).toList) : Nests (Mean T O C) := by
  intro n a s
  show _ ↔ ∃ t, Dbg.text (some 0) a t ∧ s = shift (4 * n) t
  constructor
  · rintro ⟨t0, t1, t2, h0, h1, h2, rfl⟩
    obtain ⟨t0', h0', rfl⟩ := (hT _ _ _).1 h0
    obtain ⟨t1', h1', rfl⟩ := (hT _ _ _).1 h1
    obtain ⟨t2', h2', rfl⟩ := (hC _ _ _).1 h2
    exact ⟨_, ⟨_, _, _, (hT 1 _ _).2 ⟨_, h0', rfl⟩, (hT 1 _ _).2 ⟨_, h1', rfl⟩, (hC 1 _ _).2 ⟨_, h2', rfl⟩, rfl⟩, by rw [shift_struct _ _ _ (by decide) _ (by simp)]; simp [shift_shift, shift_digits, Nat.mul_add, phantomText, shift_append, shift_cons, shift_plain hO]⟩
  · rintro ⟨_, ⟨t0, t1, t2, h0, h1, h2, rfl⟩, rfl⟩
    obtain ⟨t0', h0', rfl⟩ := (hT _ _ _).1 h0
    obtain ⟨t1', h1', rfl⟩ := (hT _ _ _).1 h1
    obtain ⟨t2', h2', rfl⟩ := (hC _ _ _).1 h2
    exact ⟨_, _, _, (hT (n + 1) _ _).2 ⟨_, h0', rfl⟩, (hT (n + 1) _ _).2 ⟨_, h1', rfl⟩, (hC (n + 1) _ _).2 ⟨_, h2', rfl⟩, by rw [shift_struct _ _ _ (by decide) _ (by simp)]; simp [shift_shift, shift_digits, Nat.mul_add, phantomText, shift_append, shift_cons, shift_plain hO]⟩

/-- **C104 (`Mean`).** -/
theorem C104_mean (hT : Nests T) (hC : Nests C) (hO : '\n' ∉ (TypeName.name O).toList) : Nests (Mean T O C) ∧ ∀ (p : Bool) (a : Mean T O C) (s : List Char), Prints p a s ↔ ∃ t0 t1 t2, Prints p a.sumw t0 ∧ Prints p a.sumw2 t1 ∧ Prints p a.count t2 ∧ s = structText p "Mean" [("sumw", t0), ("sumw2", t1), ("count", t2), ("phantom_output_type", ("PhantomData<" ++ TypeName.name O ++ ">").toList)] :=
  ⟨nests_mean hT hC hO, layout_mean hT hC hO⟩

theorem layout_weightedMean (hT : Nests T) (hW : Nests W) (hC : Nests C) (hO : '\n' ∉ (TypeName.name O).toList) (p : Bool) (a : WeightedMean T W O C) (s : List Char) : Prints p a s ↔ ∃ t0 t1 t2 t3 t4, Prints p a.sumwt t0 ∧ Prints p a.sumwt2 t1 ∧ Prints p a.sumw t2 ∧ Prints p a.sumw2 t3 ∧ Prints p a.count t4 ∧ s = structText p "WeightedMean" [("sumwt", t0), ("sumwt2", t1), ("sumw", t2), ("sumw2", t3), ("count", t4), ("phantom_output_type", ("PhantomData<" ++ TypeName.name O ++ ">").toList)] := by
  cases p with
  | false =>
    constructor
    · rintro ⟨t0, t1, t2, t3, t4, h0, h1, h2, h3, h4, rfl⟩; exact ⟨t0, t1, t2, t3, t4, h0, h1, h2, h3, h4, (structText_flat _ _).symm⟩
    · rintro ⟨t0, t1, t2, t3, t4, h0, h1, h2, h3, h4, rfl⟩; exact ⟨t0, t1, t2, t3, t4, h0, h1, h2, h3, h4, structText_flat _ _⟩
  | true =>
  show Dbg.text (some 0) a s ↔ _
  constructor
  · rintro ⟨t0, t1, t2, t3, t4, h0, h1, h2, h3, h4, rfl⟩
    obtain ⟨t0', h0', rfl⟩ := (hT _ _ _).1 h0
    obtain ⟨t1', h1', rfl⟩ := (hT _ _ _).1 h1
    obtain ⟨t2', h2', rfl⟩ := (hW _ _ _).1 h2
    obtain ⟨t3', h3', rfl⟩ := (hW _ _ _).1 h3
    obtain ⟨t4', h4', rfl⟩ := (hC _ _ _).1 h4
    exact ⟨t0', t1', t2', t3', t4', h0', h1', h2', h3', h4', by rw [structText_pretty _ _ (by simp)]; simp [shift_digits, phantomText, shift_append, shift_cons, shift_plain hO]⟩
  · rintro ⟨t0, t1, t2, t3, t4, h0, h1, h2, h3, h4, rfl⟩
    exact ⟨_, _, _, _, _, (hT 1 _ _).2 ⟨_, h0, rfl⟩, (hT 1 _ _).2 ⟨_, h1, rfl⟩, (hW 1 _ _).2 ⟨_, h2, rfl⟩, (hW 1 _ _).2 ⟨_, h3, rfl⟩, (hC 1 _ _).2 ⟨_, h4, rfl⟩, by rw [structText_pretty _ _ (by simp)]; simp [shift_digits, phantomText, shift_append, shift_cons, shift_plain hO]⟩

theorem nests_weightedMean (hT : Nests T) (hW : Nests W) (hC : Nests C) (hO : '\n' ∉ (TypeName.name O).toList) : Nests (WeightedMean T W O C) := by
  intro n a s
  show _ ↔ ∃ t, Dbg.text (some 0) a t ∧ s = shift (4 * n) t
  constructor
  · rintro ⟨t0, t1, t2, t3, t4, h0, h1, h2, h3, h4, rfl⟩
    obtain ⟨t0', h0', rfl⟩ := (hT _ _ _).1 h0
    obtain ⟨t1', h1', rfl⟩ := (hT _ _ _).1 h1
    obtain ⟨t2', h2', rfl⟩ := (hW _ _ _).1 h2
    obtain ⟨t3', h3', rfl⟩ := (hW _ _ _).1 h3
    obtain ⟨t4', h4', rfl⟩ := (hC _ _ _).1 h4
    exact ⟨_, ⟨_, _, _, _, _, (hT 1 _ _).2 ⟨_, h0', rfl⟩, (hT 1 _ _).2 ⟨_, h1', rfl⟩, (hW 1 _ _).2 ⟨_, h2', rfl⟩, (hW 1 _ _).2 ⟨_, h3', rfl⟩, (hC 1 _ _).2 ⟨_, h4', rfl⟩, rfl⟩, by rw [shift_struct _ _ _ (by decide) _ (by simp)]; simp [shift_shift, shift_digits, Nat.mul_add, phantomText, shift_append, shift_cons, shift_plain hO]⟩
  · rintro ⟨_, ⟨t0, t1, t2, t3, t4, h0, h1, h2, h3, h4, rfl⟩, rfl⟩
    obtain ⟨t0', h0', rfl⟩ := (hT _ _ _).1 h0
    obtain ⟨t1', h1', rfl⟩ := (hT _ _ _).1 h1
    obtain ⟨t2', h2', rfl⟩ := (hW _ _ _).1 h2
    obtain ⟨t3', h3', rfl⟩ := (hW _ _ _).1 h3
    obtain ⟨t4', h4', rfl⟩ := (hC _ _ _).1 h4
    exact ⟨_, _, _, _, _, (hT (n + 1) _ _).2 ⟨_, h0', rfl⟩, (hT (n + 1) _ _).2 ⟨_, h1', rfl⟩, (hW (n + 1) _ _).2 ⟨_, h2', rfl⟩, (hW (n + 1) _ _).2 ⟨_, h3', rfl⟩, (hC (n + 1) _ _).2 ⟨_, h4', rfl⟩, by rw [shift_struct _ _ _ (by decide) _ (by simp)]; simp [shift_shift, shift_digits, Nat.mul_add, phantomText, shift_append, shift_cons, shift_plain hO]⟩

/-- **C104 (`WeightedMean`).** -/
theorem C104_weightedMean (hT : Nests T) (hW : Nests W) (hC : Nests C) (hO : '\n' ∉ (TypeName.name O).toList) : Nests (WeightedMean T W O C) ∧ ∀ (p : Bool) (a : WeightedMean T W O C) (s : List Char), Prints p a s ↔ ∃ t0 t1 t2 t3 t4, Prints p a.sumwt t0 ∧ Prints p a.sumwt2 t1 ∧ Prints p a.sumw t2 ∧ Prints p a.sumw2 t3 ∧ Prints p a.count t4 ∧ s = structText p "WeightedMean" [("sumwt", t0), ("sumwt2", t1), ("sumw", t2), ("sumw2", t3), ("count", t4), ("phantom_output_type", ("PhantomData<" ++ TypeName.name O ++ ">").toList)] :=
  ⟨nests_weightedMean hT hW hC hO, layout_weightedMean hT hW hC hO⟩

end

section
variable {A V : Type} [Dbg A] [Dbg V]

theorem layout_item (hA : Nests A) (hV : Nests V) (p : Bool) (a : Item A V) (s : List Char) : Prints p a s ↔ ∃ t0 t1, Prints p a.bin t0 ∧ Prints p a.value t1 ∧ s = structText p "Item" [("index", Nat.toDigits 10 a.index), ("bin", t0), ("value", t1)] := by
  cases p with
  | false =>
    constructor
    · rintro ⟨t0, t1, h0, h1, rfl⟩; exact ⟨t0, t1, h0, h1, (structText_flat _ _).symm⟩
    · rintro ⟨t0, t1, h0, h1, rfl⟩; exact ⟨t0, t1, h0, h1, structText_flat _ _⟩
  | true =>
  show Dbg.text (some 0) a s ↔ _
  constructor
  · rintro ⟨t0, t1, h0, h1, rfl⟩
    obtain ⟨t0', h0', rfl⟩ := (hA _ _ _).1 h0
    obtain ⟨t1', h1', rfl⟩ := (hV _ _ _).1 h1
    exact ⟨t0', t1', h0', h1', by rw [structText_pretty _ _ (by simp)]; simp [shift_digits]⟩
  · rintro ⟨t0, t1, h0, h1, rfl⟩
    exact ⟨_, _, (hA 1 _ _).2 ⟨_, h0, rfl⟩, (hV 1 _ _).2 ⟨_, h1, rfl⟩, by rw [structText_pretty _ _ (by simp)]; simp [shift_digits]⟩

theorem nests_item (hA : Nests A) (hV : Nests V) : Nests (Item A V) := by
  intro n a s
  show _ ↔ ∃ t, Dbg.text (some 0) a t ∧ s = shift (4 * n) t
  constructor
  · rintro ⟨t0, t1, h0, h1, rfl⟩
    obtain ⟨t0', h0', rfl⟩ := (hA _ _ _).1 h0
    obtain ⟨t1', h1', rfl⟩ := (hV _ _ _).1 h1
    exact ⟨_, ⟨_, _, (hA 1 _ _).2 ⟨_, h0', rfl⟩, (hV 1 _ _).2 ⟨_, h1', rfl⟩, rfl⟩, by rw [shift_struct _ _ _ (by decide) _ (by simp)]; simp [shift_shift, shift_digits, Nat.mul_add]⟩
  · rintro ⟨_, ⟨t0, t1, h0, h1, rfl⟩, rfl⟩
    obtain ⟨t0', h0', rfl⟩ := (hA _ _ _).1 h0
    obtain ⟨t1', h1', rfl⟩ := (hV _ _ _).1 h1
    exact ⟨_, _, (hA (n + 1) _ _).2 ⟨_, h0', rfl⟩, (hV (n + 1) _ _).2 ⟨_, h1', rfl⟩, by rw [shift_struct _ _ _ (by decide) _ (by simp)]; simp [shift_shift, shift_digits, Nat.mul_add]⟩

/-- **C104 (`Item`).** -/
theorem C104_item (hA : Nests A) (hV : Nests V) : Nests (Item A V) ∧ ∀ (p : Bool) (a : Item A V) (s : List Char), Prints p a s ↔ ∃ t0 t1, Prints p a.bin t0 ∧ Prints p a.value t1 ∧ s = structText p "Item" [("index", Nat.toDigits 10 a.index), ("bin", t0), ("value", t1)] :=
  ⟨nests_item hA hV, layout_item hA hV⟩

theorem layout_vec (hA : Nests A) (hV : Nests V) (p : Bool) (a : VecHistogram A V) (s : List Char) : Prints p a s ↔ ∃ t0 t1, Prints p a.axes t0 ∧ Prints p a.values t1 ∧ s = structText p "VecHistogram" [("axes", t0), ("values", t1)] := by
  cases p with
  | false =>
    constructor
    · rintro ⟨t0, t1, h0, h1, rfl⟩; exact ⟨t0, t1, h0, h1, (structText_flat _ _).symm⟩
    · rintro ⟨t0, t1, h0, h1, rfl⟩; exact ⟨t0, t1, h0, h1, structText_flat _ _⟩
  | true =>
  show Dbg.text (some 0) a s ↔ _
  constructor
  · rintro ⟨t0, t1, h0, h1, rfl⟩
    obtain ⟨t0', h0', rfl⟩ := (hA _ _ _).1 h0
    obtain ⟨t1', h1', rfl⟩ := ((nests_list hV) _ _ _).1 h1
    exact ⟨t0', t1', h0', h1', by rw [structText_pretty _ _ (by simp)]; simp [shift_digits]⟩
  · rintro ⟨t0, t1, h0, h1, rfl⟩
    exact ⟨_, _, (hA 1 _ _).2 ⟨_, h0, rfl⟩, ((nests_list hV) 1 _ _).2 ⟨_, h1, rfl⟩, by rw [structText_pretty _ _ (by simp)]; simp [shift_digits]⟩

theorem nests_vec (hA : Nests A) (hV : Nests V) : Nests (VecHistogram A V) := by
  intro n a s
  show _ ↔ ∃ t, Dbg.text (some 0) a t ∧ s = shift (4 * n) t
  constructor
  · rintro ⟨t0, t1, h0, h1, rfl⟩
    obtain ⟨t0', h0', rfl⟩ := (hA _ _ _).1 h0
    obtain ⟨t1', h1', rfl⟩ := ((nests_list hV) _ _ _).1 h1
    exact ⟨_, ⟨_, _, (hA 1 _ _).2 ⟨_, h0', rfl⟩, ((nests_list hV) 1 _ _).2 ⟨_, h1', rfl⟩, rfl⟩, by rw [shift_struct _ _ _ (by decide) _ (by simp)]; simp [shift_shift, shift_digits, Nat.mul_add]⟩
  · rintro ⟨_, ⟨t0, t1, h0, h1, rfl⟩, rfl⟩
    obtain ⟨t0', h0', rfl⟩ := (hA _ _ _).1 h0
    obtain ⟨t1', h1', rfl⟩ := ((nests_list hV) _ _ _).1 h1
    exact ⟨_, _, (hA (n + 1) _ _).2 ⟨_, h0', rfl⟩, ((nests_list hV) (n + 1) _ _).2 ⟨_, h1', rfl⟩, by rw [shift_struct _ _ _ (by decide) _ (by simp)]; simp [shift_shift, shift_digits, Nat.mul_add]⟩

/-- **C104 (`VecHistogram`).** -/
theorem C104_vec (hA : Nests A) (hV : Nests V) : Nests (VecHistogram A V) ∧ ∀ (p : Bool) (a : VecHistogram A V) (s : List Char), Prints p a s ↔ ∃ t0 t1, Prints p a.axes t0 ∧ Prints p a.values t1 ∧ s = structText p "VecHistogram" [("axes", t0), ("values", t1)] :=
  ⟨nests_vec hA hV, layout_vec hA hV⟩

theorem layout_hash (hA : Nests A) (hV : Nests V) (p : Bool) (a : HashHistogram A V) (s : List Char) : Prints p a s ↔ ∃ t0 t1, Prints p a.axes t0 ∧ Prints p a.values t1 ∧ s = structText p "HashHistogram" [("axes", t0), ("values", t1)] := by
  cases p with
  | false =>
    constructor
    · rintro ⟨t0, t1, h0, h1, rfl⟩; exact ⟨t0, t1, h0, h1, (structText_flat _ _).symm⟩
    · rintro ⟨t0, t1, h0, h1, rfl⟩; exact ⟨t0, t1, h0, h1, structText_flat _ _⟩
  | true =>
  show Dbg.text (some 0) a s ↔ _
  constructor
  · rintro ⟨t0, t1, h0, h1, rfl⟩
    obtain ⟨t0', h0', rfl⟩ := (hA _ _ _).1 h0
    obtain ⟨t1', h1', rfl⟩ := ((nests_map nests_nat hV) _ _ _).1 h1
    exact ⟨t0', t1', h0', h1', by rw [structText_pretty _ _ (by simp)]; simp [shift_digits]⟩
  · rintro ⟨t0, t1, h0, h1, rfl⟩
    exact ⟨_, _, (hA 1 _ _).2 ⟨_, h0, rfl⟩, ((nests_map nests_nat hV) 1 _ _).2 ⟨_, h1, rfl⟩, by rw [structText_pretty _ _ (by simp)]; simp [shift_digits]⟩

theorem nests_hash (hA : Nests A) (hV : Nests V) : Nests (HashHistogram A V) := by
  intro n a s
  show _ ↔ ∃ t, Dbg.text (some 0) a t ∧ s = shift (4 * n) t
  constructor
  · rintro ⟨t0, t1, h0, h1, rfl⟩
    obtain ⟨t0', h0', rfl⟩ := (hA _ _ _).1 h0
    obtain ⟨t1', h1', rfl⟩ := ((nests_map nests_nat hV) _ _ _).1 h1
    exact ⟨_, ⟨_, _, (hA 1 _ _).2 ⟨_, h0', rfl⟩, ((nests_map nests_nat hV) 1 _ _).2 ⟨_, h1', rfl⟩, rfl⟩, by rw [shift_struct _ _ _ (by decide) _ (by simp)]; simp [shift_shift, shift_digits, Nat.mul_add]⟩
  · rintro ⟨_, ⟨t0, t1, h0, h1, rfl⟩, rfl⟩
    obtain ⟨t0', h0', rfl⟩ := (hA _ _ _).1 h0
    obtain ⟨t1', h1', rfl⟩ := ((nests_map nests_nat hV) _ _ _).1 h1
    exact ⟨_, _, (hA (n + 1) _ _).2 ⟨_, h0', rfl⟩, ((nests_map nests_nat hV) (n + 1) _ _).2 ⟨_, h1', rfl⟩, by rw [shift_struct _ _ _ (by decide) _ (by simp)]; simp [shift_shift, shift_digits, Nat.mul_add]⟩

/-- **C104 (`HashHistogram`).** -/
theorem C104_hash (hA : Nests A) (hV : Nests V) : Nests (HashHistogram A V) ∧ ∀ (p : Bool) (a : HashHistogram A V) (s : List Char), Prints p a s ↔ ∃ t0 t1, Prints p a.axes t0 ∧ Prints p a.values t1 ∧ s = structText p "HashHistogram" [("axes", t0), ("values", t1)] :=
  ⟨nests_hash hA hV, layout_hash hA hV⟩

end

/-! ## Tuples -/

theorem shift_tuple (k n : Nat) (l : List (List Char)) : shift (4 * k) (dbgTuple (some n) l) = dbgTuple (some (k + n)) (l.map (shift (4 * k))) := by
  unfold dbgTuple
  rw [shift_brackets _ _ _ _ (by decide) (by decide)]
  simp

theorem tupleText_pretty (l : List (List Char)) : tupleText true l = dbgTuple (some 0) (l.map (shift 4)) := by
  unfold dbgTuple tupleText
  rw [bracketed_pretty _ _ []]
  simp

theorem dbgItems_flat_end (q : List Char) (l : List (List Char)) (hl : l ≠ []) : dbgItems none [] q l = bracketed false [] l ++ q := by
  rw [← bracketed_flat]
  cases l with
  | nil => exact absurd rfl hl
  | cons x xs => simp [dbgItems, DSty.last]

theorem tupleText_flat (l : List (List Char)) : tupleText false l = dbgTuple none l := by
  unfold dbgTuple tupleText
  by_cases hl : l = []
  · subst hl; rfl
  · rw [dbgItems_flat_end _ _ hl]; simp

theorem nests_tuple1 {X : Type} [Dbg X] (hX : Nests X) : Nests (AxesTuple1 X) := by
  intro n a s
  show _ ↔ ∃ t, Dbg.text (some 0) a t ∧ s = shift (4 * n) t
  constructor
  · rintro ⟨t0, t1, h0, h1, rfl⟩
    obtain ⟨t0', h0', rfl⟩ := (hX _ _ _).1 h0
    obtain ⟨t1', h1', rfl⟩ := (nests_list nests_nat _ _ _).1 h1
    exact ⟨_, ⟨_, _, (hX 2 _ _).2 ⟨_, h0', rfl⟩, (nests_list nests_nat 1 _ _).2 ⟨_, h1', rfl⟩, rfl⟩, by
      rw [shift_struct _ _ _ (by decide) _ (by simp)]; simp [shift_shift, shift_tuple, Nat.mul_add, DSty.inner, Nat.add_assoc]⟩
  · rintro ⟨_, ⟨t0, t1, h0, h1, rfl⟩, rfl⟩
    obtain ⟨t0', h0', rfl⟩ := (hX _ _ _).1 h0
    obtain ⟨t1', h1', rfl⟩ := (nests_list nests_nat _ _ _).1 h1
    exact ⟨_, _, (hX (n + 2) _ _).2 ⟨_, h0', rfl⟩, (nests_list nests_nat (n + 1) _ _).2 ⟨_, h1', rfl⟩, by
      rw [shift_struct _ _ _ (by decide) _ (by simp)]; simp [shift_shift, shift_tuple, Nat.mul_add, DSty.inner, Nat.add_assoc]⟩

/-- **C104 (one axis).** -/
theorem C104_tuple1 {X : Type} [Dbg X] (hX : Nests X) : Nests (AxesTuple1 X) ∧ ∀ (p : Bool) (a : AxesTuple1 X) (s : List Char),
    Prints p a s ↔ ∃ t u, Prints p a.axis t ∧ Prints p a.shape u ∧ s = structText p "AxesTuple" [("axes", tupleText p [t]), ("shape", u)] := by
  refine ⟨nests_tuple1 hX, fun p a s => ?_⟩
  cases p with
  | false =>
    constructor
    · rintro ⟨t0, t1, h0, h1, rfl⟩; exact ⟨t0, t1, h0, h1, by rw [structText_flat, tupleText_flat]; rfl⟩
    · rintro ⟨t0, t1, h0, h1, rfl⟩; exact ⟨t0, t1, h0, h1, by rw [structText_flat, tupleText_flat]; rfl⟩
  | true =>
    show Dbg.text (some 0) _ s ↔ _
    have e : ∀ l, shift 4 (dbgTuple (some 0) l) = dbgTuple (some 1) (l.map (shift 4)) := fun l => shift_tuple 1 0 l
    constructor
    · rintro ⟨t0, t1, h0, h1, rfl⟩
      obtain ⟨t0', h0', rfl⟩ := (hX 2 _ _).1 h0
      obtain ⟨t1', h1', rfl⟩ := (nests_list nests_nat 1 _ _).1 h1
      exact ⟨_, _, h0', h1', by rw [structText_pretty _ _ (by simp), tupleText_pretty]; simp [shift_shift, e, DSty.inner]⟩
    · rintro ⟨t0, t1, h0, h1, rfl⟩
      exact ⟨_, _, (hX 2 _ _).2 ⟨_, h0, rfl⟩, (nests_list nests_nat 1 _ _).2 ⟨_, h1, rfl⟩, by rw [structText_pretty _ _ (by simp), tupleText_pretty]; simp [shift_shift, e, DSty.inner]⟩

section
variable [Cfg]
/-- **C104 (the axes of a tuple).** -/
theorem C104_axes {t : AxTy} {ts : List AxTy} [Dbg t.A] [TupDbg ts] (h : Nests t.A) (hs : TupNests ts) : TupNests ([] : List AxTy) ∧ TupNests (t :: ts) := by
  constructor
  · intro n a l
    constructor
    · rintro rfl; exact ⟨[], rfl, rfl⟩
    · rintro ⟨_, rfl, rfl⟩; rfl
  · intro n a l
    constructor
    · rintro ⟨x, xs, h1, h2, rfl⟩
      obtain ⟨x', h1', rfl⟩ := (h _ _ _).1 h1
      obtain ⟨xs', h2', rfl⟩ := (hs _ _ _).1 h2
      exact ⟨_, ⟨x', xs', h1', h2', rfl⟩, rfl⟩
    · rintro ⟨_, ⟨x, xs, h1, h2, rfl⟩, rfl⟩
      exact ⟨_, _, (h _ _ _).2 ⟨x, h1, rfl⟩, (hs _ _ _).2 ⟨xs, h2, rfl⟩, rfl⟩

variable {t₀ t₁ : AxTy} {ts : List AxTy} [TupDbg (t₀ :: t₁ :: ts)]

theorem nests_tuple (hX : TupNests (t₀ :: t₁ :: ts)) : Nests (AxesTuple t₀ t₁ ts) := by
  intro n a s
  show _ ↔ ∃ t, Dbg.text (some 0) a t ∧ s = shift (4 * n) t
  constructor
  · rintro ⟨t0, t1, h0, h1, rfl⟩
    obtain ⟨t0', h0', rfl⟩ := (hX _ _ _).1 h0
    obtain ⟨t1', h1', rfl⟩ := (nests_list nests_nat _ _ _).1 h1
    exact ⟨_, ⟨_, _, (hX 2 _ _).2 ⟨_, h0', rfl⟩, (nests_list nests_nat 1 _ _).2 ⟨_, h1', rfl⟩, rfl⟩, by
      rw [shift_struct _ _ _ (by decide) _ (by simp)]; simp [shift_shift, shift_tuple, Nat.mul_add, DSty.inner, Nat.add_assoc, Function.comp_def]⟩
  · rintro ⟨_, ⟨t0, t1, h0, h1, rfl⟩, rfl⟩
    obtain ⟨t0', h0', rfl⟩ := (hX _ _ _).1 h0
    obtain ⟨t1', h1', rfl⟩ := (nests_list nests_nat _ _ _).1 h1
    exact ⟨_, _, (hX (n + 2) _ _).2 ⟨_, h0', rfl⟩, (nests_list nests_nat (n + 1) _ _).2 ⟨_, h1', rfl⟩, by
      rw [shift_struct _ _ _ (by decide) _ (by simp)]; simp [shift_shift, shift_tuple, Nat.mul_add, DSty.inner, Nat.add_assoc, Function.comp_def]⟩

/-- **C104 (several axes).** -/
theorem C104_tuple (hX : TupNests (t₀ :: t₁ :: ts)) : Nests (AxesTuple t₀ t₁ ts) ∧ ∀ (p : Bool) (a : AxesTuple t₀ t₁ ts) (s : List Char),
    Prints p a s ↔ ∃ l u, TupDbg.texts (if p then some 0 else none) a.axes l ∧ Prints p a.shape u ∧ s = structText p "AxesTuple" [("axes", tupleText p l), ("shape", u)] := by
  refine ⟨nests_tuple hX, fun p a s => ?_⟩
  cases p with
  | false =>
    constructor
    · rintro ⟨t0, t1, h0, h1, rfl⟩; exact ⟨t0, t1, h0, h1, by rw [structText_flat, tupleText_flat]; rfl⟩
    · rintro ⟨t0, t1, h0, h1, rfl⟩; exact ⟨t0, t1, h0, h1, by rw [structText_flat, tupleText_flat]; rfl⟩
  | true =>
    show Dbg.text (some 0) _ s ↔ _
    have e : ∀ l, shift 4 (dbgTuple (some 0) l) = dbgTuple (some 1) (l.map (shift 4)) := fun l => shift_tuple 1 0 l
    constructor
    · rintro ⟨t0, t1, h0, h1, rfl⟩
      obtain ⟨t0', h0', rfl⟩ := (hX 2 _ _).1 h0
      obtain ⟨t1', h1', rfl⟩ := (nests_list nests_nat 1 _ _).1 h1
      exact ⟨_, _, h0', h1', by rw [structText_pretty _ _ (by simp), tupleText_pretty]; simp [shift_shift, e, DSty.inner, Function.comp_def]⟩
    · rintro ⟨t0, t1, h0, h1, rfl⟩
      exact ⟨_, _, (hX 2 _ _).2 ⟨_, h0, rfl⟩, (nests_list nests_nat 1 _ _).2 ⟨_, h1, rfl⟩, by rw [structText_pretty _ _ (by simp), tupleText_pretty]; simp [shift_shift, e, DSty.inner, Function.comp_def]⟩
end

/-! ## Numbers, strings, errors -/

theorem plain_no_newline {s : List Char} (h : ∀ c ∈ s, plainChar c = true) : '\n' ∉ s := fun m => absurd (h _ m) (by decide)

theorem dbgChars_plain {F : FFmt} (x : Flt F) : ∀ c ∈ x.dbgChars, plainChar c = true := by
  intro c hc
  cases x with
  | nan =>
    have h : ∀ c ∈ ['N', 'a', 'N'], plainChar c = true := by decide
    exact h c hc
  | inf s =>
    have h : ∀ s : Bool, ∀ c ∈ (if s then ['-'] else []) ++ ['i', 'n', 'f'], plainChar c = true := by decide
    exact h s c hc
  | fin s m hm =>
    have hc : c ∈ (if s then ['-'] else []) ++ dbgMag m hm := hc
    rcases List.mem_append.1 hc with h | h
    · cases s
      · simp at h
      · rw [List.mem_singleton.1 h]; decide
    · unfold dbgMag at h
      split at h
      · exact sciChars_plain h
      · split at h
        · exact decimalChars_plain h
        · split at h <;> exact decimalChars_plain h

theorem escapeDebug_no_newline (pr : Char → Bool) (c : Char) : '\n' ∉ escapeDebug pr c := by
  have hs : ∀ p ∈ shortEscapes, p.2 ≠ '\n' := by decide
  intro h
  by_cases hc : c = '\n'
  · subst hc
    have e : escapeDebug pr '\n' = ['\\', 'n'] := by unfold escapeDebug; rfl
    rw [e] at h
    exact absurd h (by decide)
  rcases escapeDebug_cases pr c with ⟨h1, -⟩ | ⟨x, h1, c1⟩ | h1 <;> rw [h1] at h
  · exact hc (List.mem_singleton.1 h).symm
  · have := hs _ c1
    simp at h
    exact this h.symm
  · simp only [List.mem_cons, List.mem_append, List.not_mem_nil, or_false] at h
    rcases h with h | h | h | h | h
    · exact absurd h (by decide)
    · exact absurd h (by decide)
    · exact absurd h (by decide)
    · unfold hexChars at h
      obtain ⟨d, hd, e⟩ := List.mem_map.1 h
      have := Nat.digits_lt_base (b := 16) (by norm_num) (List.mem_reverse.1 hd)
      have k : ∀ d < 16, Nat.digitChar d ≠ '\n' := by decide
      exact k d this e
    · exact absurd h (by decide)

/-- **C104 (numbers and strings).** Numbers and strings print the same with `{:?}` and `{:#?}`, wherever they stand. -/
theorem C104_numbers {τ : IntTy} {F : FFmt} (pr : Char → Bool) :
    (Nests Nat ∧ ∀ (n : Nat) s, Prints true n s ↔ Prints false n s) ∧ (Nests (MInt τ) ∧ ∀ (n : MInt τ) s, Prints true n s ↔ Prints false n s) ∧
    (Nests (Flt F) ∧ ∀ (x : Flt F) s, Prints true x s ↔ Prints false x s) ∧ (letI := strDbg pr; Nests String ∧ ∀ (x : String) s, Prints true x s ↔ Prints false x s) := by
  refine ⟨⟨nests_nat, fun _ _ => Iff.rfl⟩, ⟨nests_of_plain fun _ _ x _ h => ⟨h, ?_⟩, fun _ _ => Iff.rfl⟩, ⟨nests_of_plain fun _ _ x _ h => ⟨h, ?_⟩, fun _ _ => Iff.rfl⟩, ?_⟩
  · rw [h]
    refine plain_no_newline fun c hc => ?_
    rcases intChars_mem hc with h | rfl
    · exact plainChar_digit h
    · decide
  · rw [h]; exact plain_no_newline (dbgChars_plain x)
  · letI := strDbg pr
    refine ⟨nests_of_plain fun _ _ x _ h => ⟨h, ?_⟩, fun _ _ => Iff.rfl⟩
    rw [h]
    intro m
    simp only [List.mem_cons, List.mem_append, List.mem_flatMap, List.not_mem_nil, or_false] at m
    rcases m with m | ⟨c, -, m⟩ | m
    · exact absurd m (by decide)
    · exact escapeDebug_no_newline pr c m
    · exact absurd m (by decide)

theorem axisError_dbg_plain (e : AxisError) : '\n' ∉ e.dbg.toList := by cases e <;> decide

theorem variant_eq (p : Bool) (name : String) (t : List Char) (ht : '\n' ∉ t) : name.toList ++ '(' :: dbgItems (if p then some 0 else none) [] [] [t] ++ [')'] = variantText p name t := by
  cases p with
  | false => simp [variantText, bracketed_flat]
  | true =>
    have := bracketed_pretty [] [] [] [t]
    rw [List.map_singleton, shift_plain ht] at this
    simp [variantText, this]

/-- **C104 (errors).** -/
theorem C104_errors (p : Bool) (s : List Char) :
    (∀ e : BinaryOperationError, Prints p (.BinaryOperationError e : Error) s ↔ ∃ t, Prints p e t ∧ s = variantText p "BinaryOperationError" t) ∧
    ∀ e : AxisError, Prints p (.AxisError e : Error) s ↔ ∃ t, Prints p e t ∧ s = variantText p "AxisError" t := by
  refine ⟨fun e => ?_, fun e => ?_⟩
  · constructor
    · rintro ⟨t, rfl, rfl⟩; exact ⟨_, rfl, variant_eq p _ _ (by decide)⟩
    · rintro ⟨t, rfl, rfl⟩; exact ⟨_, rfl, (variant_eq p _ _ (by decide)).symm⟩
  · constructor
    · rintro ⟨t, rfl, rfl⟩; exact ⟨_, rfl, variant_eq p _ _ (axisError_dbg_plain e)⟩
    · rintro ⟨t, rfl, rfl⟩; exact ⟨_, rfl, (variant_eq p _ _ (axisError_dbg_plain e)).symm⟩

end NdHist

