import Verif.SpecDisplay
import Verif.Props.Display
/-!
# C68: what printing a dense histogram shows
-/
namespace NdHist
open POrd RNum
section
variable [cfg : Cfg]

/-! ## The scale -/

theorem le_pcmp (a b : F64) : POrd.le a b = (Flt.pcmp a b == some .lt || Flt.pcmp a b == some .eq) := rfl
theorem lt_pcmp (a b : F64) : POrd.lt a b = (Flt.pcmp a b == some .lt) := rfl

theorem pcmp_swap (a b : F64) : Flt.pcmp a b = some .gt ↔ POrd.lt b a = true := by
  rw [lt_pcmp]
  cases a with
  | nan => cases b <;> simp [Flt.pcmp]
  | inf s =>
    cases b with
    | nan => simp [Flt.pcmp]
    | inf t => cases s <;> cases t <;> simp [Flt.pcmp]
    | fin t n h => cases s <;> simp [Flt.pcmp]
  | fin s m h =>
    cases b with
    | nan => simp [Flt.pcmp]
    | inf t => cases t <;> simp [Flt.pcmp]
    | fin t n h' =>
      simp only [Flt.pcmp, Option.some.injEq, beq_iff_eq]
      rw [compare_gt_iff_gt, compare_lt_iff_lt]

theorem not_gt_le {a b : F64} (ha : a ≠ .nan) (hb : b ≠ .nan) (h : Flt.pcmp a b ≠ some .gt) : POrd.le a b = true := by
  rw [le_pcmp]
  cases hp : Flt.pcmp a b with
  | none =>
    cases a with
    | nan => exact absurd rfl ha
    | inf s => cases b with
      | nan => exact absurd rfl hb
      | inf => cases hp
      | fin => cases hp
    | fin s m h => cases b with
      | nan => exact absurd rfl hb
      | inf => cases hp
      | fin => cases hp
  | some o => cases o <;> first | rfl | exact absurd hp h

theorem flt_le_trans {a b c : F64} (h1 : POrd.le a b = true) (h2 : POrd.le b c = true) : POrd.le a c = true := by
  rw [LawfulPOrd.le_iff] at *
  obtain ⟨x, y, hx, hy, h⟩ := h1
  obtain ⟨y', z, hy', hz, h'⟩ := h2
  rw [hy] at hy'; cases hy'
  exact ⟨x, z, hx, hz, h.trans h'⟩
theorem flt_lt_of_lt_of_le {a b c : F64} (h1 : POrd.lt a b = true) (h2 : POrd.le b c = true) : POrd.lt a c = true := by
  rw [LawfulPOrd.lt_iff] at *
  rw [LawfulPOrd.le_iff] at h2
  obtain ⟨x, y, hx, hy, h⟩ := h1
  obtain ⟨y', z, hy', hz, h'⟩ := h2
  rw [hy] at hy'; cases hy'
  exact ⟨x, z, hx, hz, h.trans_le h'⟩
theorem flt_le_of_lt {a b : F64} (h : POrd.lt a b = true) : POrd.le a b = true := by
  rw [lt_pcmp] at h; rw [le_pcmp, h]; rfl
theorem flt_lt_irrefl {a b : F64} (h : POrd.lt a b = true) (h2 : POrd.le b a = true) : False := by
  rw [LawfulPOrd.lt_iff] at h
  rw [LawfulPOrd.le_iff] at h2
  obtain ⟨x, y, hx, hy, h⟩ := h
  obtain ⟨y', z, hy', hz, h'⟩ := h2
  rw [hy] at hy'; cases hy'
  rw [hx] at hz; cases hz
  exact absurd h' (not_le.2 h)
theorem ne_nan_of_le {a b : F64} (h : POrd.le a b = true) : a ≠ .nan ∧ b ≠ .nan := by
  rw [le_pcmp] at h
  constructor <;> rintro rfl
  · cases b <;> simp [Flt.pcmp] at h
  · cases a <;> simp [Flt.pcmp] at h

/-- the step of the search for the largest value -/
def pick (x y : F64) : F64 := match (Flt.pcmp x y).getD .lt with | .gt => x | _ => y

theorem pick_cases (x y : F64) : (Flt.pcmp x y = some .gt ∧ pick x y = x) ∨ (Flt.pcmp x y ≠ some .gt ∧ pick x y = y) := by
  unfold pick
  cases hp : Flt.pcmp x y with
  | none => right; simp
  | some o => cases o <;> simp

/-- the search for the largest value -/
def scaleOf : List F64 → F64
  | [] => .inf false
  | x :: xs => xs.foldl pick x

theorem displayScale_eq {B : Type} (items : List (B × F64)) :
    VecHistogram.displayScale items = scaleOf (items.map (·.2)) := by
  cases items with
  | nil => rfl
  | cons x xs =>
    have : ∀ (xs : List (B × F64)) (x : B × F64),
        (xs.foldl (fun x y => match (Flt.pcmp x.2 y.2).getD .lt with | .gt => x | _ => y) x).2 = (xs.map (·.2)).foldl pick x.2 := by
      intro xs
      induction xs with
      | nil => intro x; rfl
      | cons y ys ih =>
        intro x
        rw [List.foldl_cons, ih, List.map_cons, List.foldl_cons]
        congr 1
        unfold pick
        cases (Flt.pcmp x.2 y.2).getD .lt <;> rfl
    exact this xs x

theorem scale_exists : ∀ vs : List F64, IsScale vs (scaleOf vs) := by
  intro vs
  induction vs using List.reverseRecOn with
  | nil => exact .inl ⟨rfl, rfl⟩
  | append_singleton vs y ih =>
    cases vs with
    | nil =>
      show IsScale [y] y
      by_cases hy : y = .nan
      · exact .inr (.inl ⟨[], by rw [hy]; rfl, hy⟩)
      · exact .inr (.inr ⟨[], [], [], rfl, .inl rfl, hy, by simp, by simp⟩)
    | cons x xs =>
      have e : scaleOf (x :: xs ++ [y]) = pick (xs.foldl pick x) y := by simp [scaleOf]
      rw [e]
      rw [scaleOf] at ih
      generalize xs.foldl pick x = m at ih ⊢
      have hne : x :: xs ≠ [] := by simp
      generalize x :: xs = vs at ih hne ⊢
      by_cases hy : y = .nan
      · subst hy
        have : pick m .nan = .nan := by
          rcases pick_cases m .nan with ⟨h, -⟩ | ⟨-, h⟩
          · cases m <;> cases h
          · exact h
        rw [this]
        exact .inr (.inl ⟨vs, rfl, rfl⟩)
      rcases ih with ⟨e1, e2⟩ | ⟨pre, e1, e2⟩ | ⟨pre, before, after, e1, e2, e3, e4, e5⟩
      · exact absurd e1 hne
      · subst e1 e2
        have : pick .nan y = y := by
          rcases pick_cases .nan y with ⟨h, -⟩ | ⟨-, h⟩
          · cases h
          · exact h
        rw [this]
        exact .inr (.inr ⟨pre ++ [.nan], [], [], rfl, .inr ⟨pre, rfl⟩, hy, by simp, by simp⟩)
      · rcases pick_cases m y with ⟨h1, h2⟩ | ⟨h1, h2⟩
        · rw [h2]
          refine .inr (.inr ⟨pre, before, after ++ [y], by rw [e1]; simp, e2, e3, e4, ?_⟩)
          intro z hz
          rcases List.mem_append.1 hz with hz | hz
          · exact e5 z hz
          · rw [List.mem_singleton] at hz; subst hz; exact (pcmp_swap _ _).1 h1
        · rw [h2]
          have hmy := not_gt_le e3 hy h1
          refine .inr (.inr ⟨pre, before ++ m :: after, [], by rw [e1]; simp, e2, hy, ?_, by simp⟩)
          intro z hz
          rcases List.mem_append.1 hz with hz | hz
          · exact flt_le_trans (e4 z hz) hmy
          · rcases List.mem_cons.1 hz with rfl | hz
            · exact hmy
            · exact flt_le_trans (flt_le_of_lt (e5 z hz)) hmy

theorem pick_nan (x : F64) : pick .nan x = x := by
  rcases pick_cases .nan x with ⟨h, -⟩ | ⟨-, h⟩
  · cases h
  · exact h
theorem pick_nan_right (x : F64) : pick x .nan = .nan := by
  rcases pick_cases x .nan with ⟨h, -⟩ | ⟨-, h⟩
  · cases x <;> cases h
  · exact h

theorem scale_unique {vs : List F64} {m : F64} (h : IsScale vs m) : m = scaleOf vs := by
  have e : ∀ vs : List F64, vs ≠ [] → scaleOf vs = vs.foldl pick .nan := by
    intro vs hvs
    cases vs with
    | nil => exact absurd rfl hvs
    | cons x xs => simp [scaleOf, pick_nan]
  rcases h with ⟨e1, e2⟩ | ⟨pre, e1, e2⟩ | ⟨pre, before, after, e1, e2, e3, e4, e5⟩
  · subst e1; exact e2
  · rw [e vs (by simp [e1]), e1, List.foldl_append, e2]
    simp [pick_nan_right]
  · rw [e vs (by simp [e1]), e1, List.foldl_append, List.foldl_append, List.foldl_cons]
    have hpre : pre.foldl pick .nan = .nan := by
      rcases e2 with rfl | ⟨p, rfl⟩
      · rfl
      · simp [pick_nan_right]
    rw [hpre]
    have hB : ∀ (l : List F64) (r : F64), (r = .nan ∨ POrd.le r m = true) → (∀ x ∈ l, POrd.le x m = true) → l.foldl pick r = .nan ∨ POrd.le (l.foldl pick r) m = true := by
      intro l
      induction l with
      | nil => intro r hr _; exact hr
      | cons x l ih =>
        intro r hr hl
        rw [List.foldl_cons]
        refine ih _ ?_ fun y hy => hl y (by simp [hy])
        rcases pick_cases r x with ⟨-, h2⟩ | ⟨-, h2⟩ <;> rw [h2]
        · exact hr
        · exact .inr (hl x (by simp))
    have hC : pick (before.foldl pick .nan) m = m := by
      rcases pick_cases (before.foldl pick .nan) m with ⟨h1, h2⟩ | ⟨-, h2⟩
      · rcases hB before .nan (.inl rfl) e4 with h | h
        · rw [h, pick_nan]
        · exact (flt_lt_irrefl ((pcmp_swap _ _).1 h1) h).elim
      · exact h2
    rw [hC]
    have hA : ∀ l : List F64, (∀ x ∈ l, POrd.lt x m = true) → l.foldl pick m = m := by
      intro l
      induction l with
      | nil => intro _; rfl
      | cons x l ih =>
        intro hl
        have : pick m x = m := by
          rcases pick_cases m x with ⟨-, h2⟩ | ⟨h1, -⟩
          · exact h2
          · exact absurd ((pcmp_swap _ _).2 (hl x (by simp))) h1
        rw [List.foldl_cons, this]
        exact ih fun y hy => hl y (by simp [hy])
    exact (hA after e5).symm

/-- **C68 (scale).** The value to which a full bar belongs is determined by the displayed values alone: the last maximum among those after the last NaN. -/
theorem C68_scale {B : Type} (items : List (B × F64)) (m : F64) : VecHistogram.displayScale items = m ↔ IsScale (items.map (·.2)) m := by
  rw [displayScale_eq]
  constructor
  · rintro rfl; exact scale_exists _
  · intro h; exact (scale_unique h).symm

/-! ## One bar -/

theorem f64_50_eq : ∃ h, f64 50 = .fin false 50 h := by
  obtain ⟨h1, h2⟩ := f64_50
  cases hz : f64 50 with
  | nan => rw [hz] at h1; exact h1.elim
  | inf => rw [hz] at h1; exact h1.elim
  | fin s m h =>
    rw [hz] at h2
    cases s
    · have h2 : m = 50 := h2
      subst h2; exact ⟨h, rfl⟩
    · have h2 : -m = 50 := h2
      have := h.nonneg
      linarith

/-- truncation to `usize` and the limit of `repeat` -/
theorem hashes_cast {x : F64} :
    (x = .nan ∨ x = .inf true → hashes (Flt.asUsize x) = .ok (String.ofList (List.replicate 0 '#'))) ∧
    (x = .inf false → hashes (Flt.asUsize x) = .error .capacityOverflow) ∧
    (x.isFin → x.val ≤ 0 → hashes (Flt.asUsize x) = .ok (String.ofList (List.replicate 0 '#'))) ∧
    (x.isFin → 0 ≤ x.val → x.val < (usizeSize / 2 : Nat) → hashes (Flt.asUsize x) = .ok (String.ofList (List.replicate ⌊x.val⌋.toNat '#'))) ∧
    (x.isFin → (usizeSize / 2 : Nat) ≤ x.val → hashes (Flt.asUsize x) = .error .capacityOverflow) := by
  have hu := usize_gt_64
  have h0 : hashes 0 = .ok (String.ofList (List.replicate 0 '#')) := by unfold hashes; rw [if_pos (by omega)]
  refine ⟨?_, ?_, ?_, ?_, ?_⟩
  · rintro (rfl | rfl)
    · exact h0
    · exact h0
  · rintro rfl
    show hashes (usizeSize - 1) = _
    unfold hashes; rw [if_neg (by omega)]
  · intro hf hv
    cases x with
    | nan => exact hf.elim
    | inf => exact hf.elim
    | fin s m h =>
      cases s
      · have hv : m ≤ 0 := hv
        have : m = 0 := le_antisymm hv h.nonneg
        subst this
        simpa [Flt.asUsize] using h0
      · exact h0
  · intro hf hv hlt
    cases x with
    | nan => exact hf.elim
    | inf => exact hf.elim
    | fin s m h =>
      cases s
      · have hv : 0 ≤ m := hv
        have hlt : m < (usizeSize / 2 : Nat) := hlt
        have hfl : ⌊m⌋ < ((usizeSize / 2 : Nat) : Int) := by
          rw [Int.floor_lt]; exact_mod_cast hlt
        have hf0 : 0 ≤ ⌊m⌋ := Int.floor_nonneg.2 hv
        show hashes (min ⌊m⌋.toNat (usizeSize - 1)) = _
        have : min ⌊m⌋.toNat (usizeSize - 1) = ⌊m⌋.toNat := by omega
        rw [this]
        unfold hashes
        rw [if_pos (by omega)]; rfl
      · have hv : 0 ≤ -m := hv
        have : m = 0 := by have := h.nonneg; linarith
        subst this
        simpa [Flt.asUsize, Flt.val, Flt.sval] using h0
  · intro hf hlt
    cases x with
    | nan => exact hf.elim
    | inf => exact hf.elim
    | fin s m h =>
      cases s
      · have hlt : ((usizeSize / 2 : Nat) : ℚ) ≤ m := hlt
        have hfl : ((usizeSize / 2 : Nat) : Int) ≤ ⌊m⌋ := by rw [Int.le_floor]; exact_mod_cast hlt
        show hashes (min ⌊m⌋.toNat (usizeSize - 1)) = _
        unfold hashes
        rw [if_neg (by omega)]
      · have hlt : ((usizeSize / 2 : Nat) : ℚ) ≤ -m := hlt
        have : (0 : ℚ) < (usizeSize / 2 : Nat) := by
          have : 0 < usizeSize / 2 := by omega
          exact_mod_cast this
        have := h.nonneg
        linarith

theorem mul50_nan : Flt.mul (f64 50) .nan = .nan := by obtain ⟨h, e⟩ := f64_50_eq; rw [e]; rfl
theorem mul50_inf (s : Bool) : Flt.mul (f64 50) (.inf s) = .inf s := by
  obtain ⟨h, e⟩ := f64_50_eq; rw [e]; simp [Flt.mul]

/-- no marks if the ratio is not positive -/
theorem hashes_nonpos {r : ℚ} {y : F64} (hy : Flt.Rounds r y) (hr : r ≤ 0) :
    hashes (Flt.asUsize (Flt.mul (f64 50) y)) = .ok (String.ofList (List.replicate 0 '#')) := by
  have neg : ∀ r : ℚ, r ≤ 0 → FFmt.f64.rs r ≤ 0 := fun r hr => by
    have := FFmt.rs_mono FFmt.f64 hr; rwa [FFmt.rs_zero] at this
  have hneg : ∀ {r : ℚ} {s : Bool}, r ≤ 0 → Flt.Rounds r (.inf s : F64) → s = true := by
    intro r s hr h
    obtain ⟨e, hm⟩ := h.of_inf
    rcases hr.lt_or_eq with h | h
    · rw [e, decide_eq_true h]
    · subst h; rw [FFmt.rs_zero, abs_zero] at hm; exact absurd hm (not_lt.2 FFmt.f64.maxFin_pos.le)
  cases hy' : y with
  | nan => rw [mul50_nan]; exact hashes_cast.1 (.inl rfl)
  | inf s =>
    rw [hy'] at hy
    rw [mul50_inf, hneg hr hy]; exact hashes_cast.1 (.inr rfl)
  | fin s m h =>
    rw [← hy']
    have hf : y.isFin := by rw [hy']; trivial
    have hv := hy.of_isFin hf
    have hx := Flt.mul_rounds f64_50.1 hf
    rw [f64_50.2, hv] at hx
    have hr' : 50 * FFmt.f64.rs r ≤ 0 := by have := neg r hr; linarith
    cases hx' : Flt.mul (f64 50) y with
    | nan => exact absurd hx' hx.not_nan
    | inf t =>
      rw [hx'] at hx
      rw [hneg hr' hx]; exact hashes_cast.1 (.inr rfl)
    | fin t n h' =>
      rw [← hx']
      have hxf : (Flt.mul (f64 50) y).isFin := by rw [hx']; trivial
      exact hashes_cast.2.2.1 hxf (by rw [hx.of_isFin hxf]; exact neg _ hr')

theorem maxFin_ge_usize (hb : cfg.usizeBits ≤ 128) : ((usizeSize / 2 : Nat) : ℚ) ≤ FFmt.f64.maxFin := by
  have h1 : usizeSize / 2 ≤ 2 ^ 128 := by
    have : usizeSize ≤ 2 ^ 128 := Nat.pow_le_pow_right (by norm_num) hb
    omega
  have h2 : ((2 ^ 128 : Nat) : ℚ) ≤ FFmt.f64.maxFin := by decide +kernel
  exact le_trans (by exact_mod_cast h1) h2

/-- the marks if the ratio is positive -/
theorem hashes_pos (hb : cfg.usizeBits ≤ 128) {r : ℚ} {y : F64} (hy : Flt.Rounds r y) (hr : 0 < r) :
    ((usizeSize / 2 : Nat) ≤ FFmt.f64.rs (50 * FFmt.f64.rs r) → hashes (Flt.asUsize (Flt.mul (f64 50) y)) = .error .capacityOverflow) ∧
    (FFmt.f64.rs (50 * FFmt.f64.rs r) < (usizeSize / 2 : Nat) →
      hashes (Flt.asUsize (Flt.mul (f64 50) y)) = .ok (String.ofList (List.replicate ⌊FFmt.f64.rs (50 * FFmt.f64.rs r)⌋.toNat '#'))) := by
  have hmf := maxFin_ge_usize hb
  have r0 := FFmt.rs_pos_le FFmt.f64 hr.le
  have x0 : 0 ≤ FFmt.f64.rs (50 * FFmt.f64.rs r) := FFmt.rs_pos_le _ (by positivity)
  have hmax : FFmt.f64.rs FFmt.f64.maxFin = FFmt.f64.maxFin := FFmt.rs_of_rep _ (by
    rw [abs_of_pos FFmt.f64.maxFin_pos]; exact FFmt.f64.maxFin_rep.repU)
  cases hy' : y with
  | nan => exact absurd hy' hy.not_nan
  | inf s =>
    rw [hy'] at hy
    obtain ⟨e, hm⟩ := hy.of_inf
    rw [decide_eq_false (not_lt.2 hr.le)] at e
    subst e
    rw [mul50_inf]
    rw [abs_of_nonneg r0] at hm
    have : FFmt.f64.maxFin ≤ FFmt.f64.rs (50 * FFmt.f64.rs r) := by
      have := FFmt.rs_mono FFmt.f64 (x := FFmt.f64.maxFin) (y := 50 * FFmt.f64.rs r) (by linarith)
      rwa [hmax] at this
    exact ⟨fun _ => hashes_cast.2.1 rfl, fun h => absurd (hmf.trans this) (not_le.2 h)⟩
  | fin s m h =>
    rw [← hy']
    have hf : y.isFin := by rw [hy']; trivial
    have hv := hy.of_isFin hf
    have hx := Flt.mul_rounds f64_50.1 hf
    rw [f64_50.2, hv] at hx
    cases hx' : Flt.mul (f64 50) y with
    | nan => exact absurd hx' hx.not_nan
    | inf t =>
      rw [hx'] at hx
      obtain ⟨e, hm⟩ := hx.of_inf
      rw [decide_eq_false (not_lt.2 (by positivity))] at e
      subst e
      rw [abs_of_nonneg x0] at hm
      exact ⟨fun _ => hashes_cast.2.1 rfl, fun h => absurd (hmf.trans hm.le) (not_le.2 h)⟩
    | fin t n h' =>
      rw [← hx']
      have hxf : (Flt.mul (f64 50) y).isFin := by rw [hx']; trivial
      have hxv := hx.of_isFin hxf
      rw [← hxv] at x0 ⊢
      exact ⟨hashes_cast.2.2.2.2 hxf, hashes_cast.2.2.2.1 hxf x0⟩

theorem displayRow_eq {B : Type} [Disp B] (prec : Nat) (m : F64) (b : B) (v : F64) :
    VecHistogram.displayRow prec m (b, v) = (hashes (Flt.asUsize (Flt.mul (f64 50) (Flt.div v m)))).map fun bar =>
      "\n" ++ padLeft16 (Disp.fmt (some prec) b) ++ " | " ++ bar := by
  unfold VecHistogram.displayRow
  simp only
  cases hashes (Flt.asUsize (Flt.mul (f64 50) (Flt.div v m))) <;> rfl

/-- **C68 (rows).** What a row shows, for all values and scales including NaN, infinities and zeros of both signs: no marks, or a bar as long as 50 times the ratio of the value to the scale (rounded
twice, then down); a bar that is infinitely long, or too long for the address space, is a panic. -/
theorem C68_row (hb : cfg.usizeBits ≤ 128) {B : Type} [Disp B] (prec : Nat) (m : F64) (b : B) (v : F64) :
    RowIs prec m b v (VecHistogram.displayRow prec m (b, v)) := by
  rw [displayRow_eq]
  have none0 : NoBar v m → hashes (Flt.asUsize (Flt.mul (f64 50) (Flt.div v m))) = .ok (String.ofList (List.replicate 0 '#')) →
      RowIs prec m b v ((hashes (Flt.asUsize (Flt.mul (f64 50) (Flt.div v m)))).map fun bar => "\n" ++ padLeft16 (Disp.fmt (some prec) b) ++ " | " ++ bar) := by
    intro h1 h2
    exact .inl ⟨h1, by rw [h2]; rfl⟩
  have endless : ¬ NoBar v m → EndlessBar v m → Flt.div v m = .inf false →
      RowIs prec m b v ((hashes (Flt.asUsize (Flt.mul (f64 50) (Flt.div v m)))).map fun bar => "\n" ++ padLeft16 (Disp.fmt (some prec) b) ++ " | " ++ bar) := by
    intro h1 h2 h3
    exact .inr (.inl ⟨h1, h2, by rw [h3, mul50_inf, hashes_cast.2.1 rfl]; rfl⟩)
  cases v with
  | nan =>
    refine none0 (.inl rfl) ?_
    have : Flt.div .nan m = .nan := by cases m <;> rfl
    rw [this, mul50_nan]; exact hashes_cast.1 (.inl rfl)
  | inf s =>
    cases m with
    | nan => exact none0 (.inr (.inl rfl)) (by rw [show Flt.div (.inf s) .nan = (.nan : F64) from rfl, mul50_nan]; exact hashes_cast.1 (.inl rfl))
    | inf t =>
      exact none0 (.inr (.inr (.inr (.inl ⟨t, rfl⟩)))) (by
        rw [show Flt.div (.inf s) (.inf t) = (.nan : F64) from rfl, mul50_nan]; exact hashes_cast.1 (.inl rfl))
    | fin t n h =>
      by_cases hst : s = t
      · subst hst
        refine endless ?_ (.inl ⟨s, rfl⟩) (by simp [Flt.div])
        rintro (h | h | h | ⟨_, h⟩ | h)
        · cases h
        · cases h
        · exact h.1
        · cases h
        · exact h rfl
      · refine none0 (.inr (.inr (.inr (.inr hst)))) ?_
        have : Flt.div (.inf s) (.fin t n h) = .inf true := by cases s <;> cases t <;> first | rfl | exact absurd rfl hst
        rw [this, mul50_inf]; exact hashes_cast.1 (.inr rfl)
  | fin s a ha =>
    cases m with
    | nan => exact none0 (.inr (.inl rfl)) (by rw [show Flt.div (.fin s a ha) .nan = (.nan : F64) from rfl, mul50_nan]; exact hashes_cast.1 (.inl rfl))
    | inf t =>
      refine none0 (.inr (.inr (.inr (.inl ⟨t, rfl⟩)))) (hashes_nonpos (r := 0) (.fin ?_ ?_) le_rfl)
      · trivial
      · rw [FFmt.rs_zero]; show Flt.sval _ 0 = 0
        unfold Flt.sval; split <;> simp
    | fin t n hn =>
      by_cases hn0 : n = 0
      · subst hn0
        by_cases ha0 : a = 0
        · subst ha0
          refine none0 (.inr (.inr (.inl ⟨trivial, by simp [Flt.val, Flt.sval]⟩))) ?_
          rw [show Flt.div (.fin s 0 ha) (.fin t 0 hn) = (.nan : F64) by simp [Flt.div], mul50_nan]; exact hashes_cast.1 (.inl rfl)
        · by_cases hst : s = t
          · subst hst
            refine endless ?_ (.inr ⟨trivial, by simp [Flt.val, Flt.sval]⟩) (by simp [Flt.div, ha0])
            rintro (h | h | h | ⟨_, h⟩ | h)
            · cases h
            · cases h
            · have h2 : Flt.sval s a = 0 := h.2
              cases s <;> simp [Flt.sval] at h2 <;> exact ha0 h2
            · cases h
            · exact h rfl
          · refine none0 (.inr (.inr (.inr (.inr hst)))) ?_
            have : Flt.div (.fin s a ha) (.fin t 0 hn) = .inf true := by
              cases s <;> cases t <;> first | exact absurd rfl hst | simp [Flt.div, ha0]
            rw [this, mul50_inf]; exact hashes_cast.1 (.inr rfl)
      · have hmv : (Flt.fin t n hn : F64).val ≠ 0 := by
          cases t <;> simp [Flt.val, Flt.sval, hn0]
        have hd := Flt.div_rounds (a := (.fin s a ha : F64)) (b := .fin t n hn) trivial trivial hmv
        have hnp : 0 < n := lt_of_le_of_ne hn.nonneg (Ne.symm hn0)
        have hap := ha.nonneg
        by_cases ha0 : a = 0
        · subst ha0
          refine none0 (.inr (.inr (.inl ⟨trivial, by simp [Flt.val, Flt.sval]⟩))) (hashes_nonpos hd ?_)
          simp [Flt.val, Flt.sval]
        · have hap : 0 < a := lt_of_le_of_ne hap (Ne.symm ha0)
          have hq : 0 < a / n := by positivity
          by_cases hst : s = t
          · subst hst
            have hr : (Flt.fin s a ha : F64).val / (Flt.fin s n hn : F64).val = a / n := by
              cases s
              · rfl
              · show -a / -n = a / n; rw [neg_div_neg_eq]
            have hp := hashes_pos hb hd (by rw [hr]; exact hq)
            have hnb : ¬ NoBar (.fin s a ha) (.fin s n hn) := by
              rintro (h | h | h | ⟨_, h⟩ | h)
              · cases h
              · cases h
              · have h2 : Flt.sval s a = 0 := h.2
                cases s <;> simp [Flt.sval] at h2 <;> exact ha0 h2
              · cases h
              · exact h rfl
            have hne : ¬ EndlessBar (.fin s a ha) (.fin s n hn) := by
              rintro (⟨_, h⟩ | h)
              · cases h
              · exact hmv h.2
            rcases le_or_gt ((usizeSize / 2 : Nat) : ℚ) (barLength (.fin s a ha) (.fin s n hn)) with h | h
            · exact .inr (.inr (.inl ⟨hnb, hne, h, by rw [hp.1 h]; rfl⟩))
            · exact .inr (.inr (.inr ⟨hnb, hne, h, by rw [hp.2 h]; rfl⟩))
          · refine none0 (.inr (.inr (.inr (.inr hst)))) (hashes_nonpos hd ?_)
            have : (Flt.fin s a ha : F64).val / (Flt.fin t n hn : F64).val = - (a / n) := by
              cases s <;> cases t <;> first | exact absurd rfl hst | skip
              · show a / -n = _; rw [div_neg]
              · show -a / n = _; rw [neg_div]
            rw [this]; linarith


/-! ## The length of a bar -/

theorem rnd_err (x : ℚ) (hx : 0 ≤ x) : |FFmt.f64.rs x - x| ≤ x * pow2 (-53) + pow2 (-1075) := by
  rcases hx.eq_or_lt with rfl | hx
  · rw [FFmt.rs_zero, sub_zero, abs_zero, zero_mul, zero_add]; exact (pow2_pos _).le
  rw [FFmt.rs_nonneg _ hx.le]
  rcases le_or_gt (pow2 FFmt.f64.emin) x with h | h
  · have := FFmt.f64.rnd_rel' h
    have hp := pow2_pos (-1075)
    have e : pow2 (-(FFmt.f64.p : Int)) = pow2 (-53) := rfl
    rw [e] at this
    linarith
  · have := FFmt.f64.rnd_abs x
    have hq : FFmt.f64.qexp x ≤ -1074 := by
      unfold FFmt.qexp
      have hl : ilog2 x ≤ FFmt.f64.emin := by
        have := (ilog2_spec hx).1
        exact pow2_le.1 (this.trans h.le)
      have : FFmt.f64.emin = -1022 := rfl
      have hp : FFmt.f64.p = 53 := rfl
      rw [hp]; push_cast; omega
    have h2 : pow2 (FFmt.f64.qexp x) ≤ pow2 (-1074) := pow2_le.2 hq
    have h3 : pow2 (-1074) = 2 * pow2 (-1075) := by
      have := pow2_succ (-1075)
      rwa [show (-1075 : Int) + 1 = -1074 by norm_num] at this
    have h4 : 0 ≤ x * pow2 (-53) := mul_nonneg hx.le (pow2_pos _).le
    linarith

theorem ratio_pos {v m : F64} (h1 : ¬ NoBar v m) (h2 : ¬ EndlessBar v m) : v.isFin ∧ m.isFin ∧ v.val ≠ 0 ∧ m.val ≠ 0 ∧ v.val / m.val = |v.val| / |m.val| := by
  simp only [NoBar, not_or, not_exists, ne_eq, not_not] at h1
  simp only [EndlessBar, not_or, not_exists] at h2
  obtain ⟨h11, h12, h13, h14, h15⟩ := h1
  cases v with
  | nan => exact absurd rfl h11
  | inf s => exact absurd rfl (h2.1 s)
  | fin s a ha =>
    cases m with
    | nan => exact absurd rfl h12
    | inf s => exact absurd rfl (h14 s)
    | fin t n hn =>
      have h15 : s = t := h15
      subst h15
      refine ⟨trivial, trivial, fun h => h13 ⟨trivial, h⟩, fun h => h2.2 ⟨trivial, h⟩, ?_⟩
      show Flt.sval s a / Flt.sval s n = |Flt.sval s a| / |Flt.sval s n|
      rw [Flt.abs_sval s ha.nonneg, Flt.abs_sval s hn.nonneg]
      cases s
      · rfl
      · show -a / -n = _; rw [neg_div_neg_eq]

/-- **C68 (length of bars).** Bars are 50 times the ratio of the value to the scale, up to a relative error of `2^-51` (and `2^-1000`); the bar of the scale itself has exactly 50 marks, smaller
values do not get more than 50, and larger values not fewer than smaller ones. -/
theorem C68_length {v m : F64} (h1 : ¬ NoBar v m) (h2 : ¬ EndlessBar v m) :
    0 < v.val / m.val ∧ |barLength v m - 50 * (v.val / m.val)| ≤ 50 * (v.val / m.val) * pow2 (-51) + pow2 (-1000) ∧
    (v.val = m.val → barLength v m = 50) ∧ (|v.val| ≤ |m.val| → barLength v m ≤ 50) ∧
    ∀ v' : F64, ¬ NoBar v' m → ¬ EndlessBar v' m → |v.val| ≤ |v'.val| → barLength v m ≤ barLength v' m := by
  obtain ⟨hv, hm, hv0, hm0, hq⟩ := ratio_pos h1 h2
  have hmp : 0 < |m.val| := abs_pos.2 hm0
  have hq0 : 0 < v.val / m.val := by rw [hq]; exact div_pos (abs_pos.2 hv0) hmp
  have h50 : FFmt.f64.rs 50 = 50 := by have := rs64_nat 50 (by norm_num); exact_mod_cast this
  have h1' : FFmt.f64.rs 1 = 1 := by have := rs64_nat 1 (by norm_num); exact_mod_cast this
  refine ⟨hq0, ?_, ?_, ?_, ?_⟩
  · set q := v.val / m.val
    have a := rnd_err q hq0.le
    have r0 := FFmt.rs_pos_le FFmt.f64 hq0.le
    have b := rnd_err (50 * FFmt.f64.rs q) (by positivity)
    unfold barLength
    change |FFmt.f64.rs (50 * FFmt.f64.rs q) - 50 * q| ≤ _
    have p1 : pow2 (-51) = 4 * pow2 (-53) := by
      have e1 := pow2_succ (-53)
      have e2 := pow2_succ (-52)
      norm_num at e1 e2
      linarith
    have p2 : 1000 * pow2 (-1075) ≤ pow2 (-1000) := by decide +kernel
    have p3 : pow2 (-53) ≤ 1 := by decide +kernel
    have p4 := pow2_pos (-53)
    have p5 := pow2_pos (-1075)
    rw [abs_le] at a b ⊢
    have hmul : q * pow2 (-53) ≤ q := by nlinarith
    constructor <;> nlinarith
  · intro h
    unfold barLength
    rw [h, div_self hm0, h1', mul_one, h50]
  · intro h
    have hle : v.val / m.val ≤ 1 := by rw [hq, div_le_one hmp]; exact h
    have := FFmt.rs_mono FFmt.f64 hle
    rw [h1'] at this
    have := FFmt.rs_mono FFmt.f64 (x := 50 * FFmt.f64.rs (v.val / m.val)) (y := 50) (by linarith)
    rwa [h50] at this
  · intro v' h1' h2' hle
    obtain ⟨-, -, -, -, hq'⟩ := ratio_pos h1' h2'
    have : v.val / m.val ≤ v'.val / m.val := by
      rw [hq, hq']; exact div_le_div_of_nonneg_right hle hmp.le
    unfold barLength
    exact FFmt.rs_mono _ (by have := FFmt.rs_mono FFmt.f64 this; linarith)

/-! ## The text -/
variable {A V : Type} [Axis A]

theorem mapM_all_or_panic {α β : Type} (f : α → Res β) (l : List α) (e : Panic) (hf : ∀ x ∈ l, (∃ y, f x = .ok y) ∨ f x = .error e) :
    ((∃ x ∈ l, f x = .error e) → l.mapM f = .error e) ∧
    ((∀ x ∈ l, f x ≠ .error e) → ∃ ys, l.mapM f = .ok ys ∧ ys.length = l.length ∧ ∀ (i : Nat) x, l[i]? = some x → ∃ y, ys[i]? = some y ∧ f x = .ok y) := by
  induction l with
  | nil => exact ⟨by simp, fun _ => ⟨[], rfl, rfl, by simp⟩⟩
  | cons x l ih =>
    obtain ⟨i1, i2⟩ := ih fun y hy => hf y (by simp [hy])
    rw [List.mapM_cons]
    rcases hf x (by simp) with ⟨y, hy⟩ | hx
    · constructor
      · rintro ⟨z, hz, hze⟩
        have : z ∈ l := by
          rcases List.mem_cons.1 hz with rfl | h
          · rw [hy] at hze; cases hze
          · exact h
        rw [hy]
        simp only [bind, Except.bind, i1 ⟨z, this, hze⟩]
      · intro h
        obtain ⟨ys, h1, h2, h3⟩ := i2 fun z hz => h z (by simp [hz])
        refine ⟨y :: ys, by rw [hy, h1]; rfl, by simp [h2], ?_⟩
        intro i z hz
        cases i with
        | zero => cases hz; exact ⟨y, rfl, hy⟩
        | succ i => exact h3 i z hz
    · exact ⟨fun _ => by rw [hx]; rfl, fun h => absurd hx (h x (by simp))⟩

/-- **C68.** Printing a dense histogram, whatever its values: if no bar of the first 50 bins is too long, the header and one row per bin for the first 50 bins, in order; otherwise a panic. -/
theorem C68_display (hb : cfg.usizeBits ≤ 128) [Disp (Axis.Interval A)] [Disp F64] {h : VecHistogram A V} {n : Nat} (ok : h.Ok n) (into : V → F64) (prec : Option Nat) {m : F64}
    (hm : IsScale ((h.values.take 50).map into) m) :
    ((∀ v ∈ h.values.take 50, ¬ TooLong (into v) m) → ∃ rows,
      h.display into (fun _ => true) prec = .ok (("VecHistogram" ++ toString (Axis.numDim h.axes) ++ "D(" ++ toString n ++ " bins, sum=" ++
        Disp.fmt none ((h.values.map into).foldl Flt.add (f64 0)) ++ ")") :: rows, true) ∧ rows.length = min 50 n ∧
      ∀ i, i < min 50 n → ∃ b v row, Axis.bin h.axes i = .ok (some b) ∧ h.values[i]? = some v ∧ rows[i]? = some row ∧ RowIs (prec.getD 2) m b (into v) (.ok row)) ∧
    ((∃ v ∈ h.values.take 50, TooLong (into v) m) → h.display into (fun _ => true) prec = .error .capacityOverflow) := by
  have hz : f64 0 = Flt.zero false := by decide +kernel
  obtain ⟨items, hitems, hi2, hi3, hmem, hmem'⟩ := displayItems_spec ok into
  have hvals : items.map (·.2) = (h.values.take 50).map into := by
    apply List.ext_getElem?
    intro i
    rw [List.getElem?_map, List.getElem?_map]
    by_cases hi : i < min 50 n
    · obtain ⟨b, v, h1, -, h3⟩ := hi3 i hi
      rw [h1, List.getElem?_take_of_lt (by omega), h3]; rfl
    · rw [List.getElem?_eq_none (by omega), List.getElem?_eq_none (by rw [List.length_take, ok.size]; omega)]; rfl
  have hscale : VecHistogram.displayScale items = m := (C68_scale items m).2 (by rw [hvals]; exact hm)
  have hrow : ∀ (b : Axis.Interval A) (v : F64), RowIs (prec.getD 2) m b v (VecHistogram.displayRow (prec.getD 2) m (b, v)) := fun b v => C68_row hb _ _ _ _
  have herr : ∀ (b : Axis.Interval A) (v : F64), VecHistogram.displayRow (prec.getD 2) m (b, v) = .error .capacityOverflow ↔ TooLong v m := by
    intro b v
    have := hrow b v
    unfold RowIs at this
    unfold TooLong
    constructor
    · intro he
      rw [he] at this
      rcases this with ⟨_, h⟩ | ⟨h1, h2, _⟩ | ⟨h1, h2, h3, _⟩ | ⟨_, _, _, h⟩
      · cases h
      · exact ⟨h1, .inl h2⟩
      · exact ⟨h1, .inr h3⟩
      · cases h
    · rintro ⟨h1, h2⟩
      rcases this with ⟨h, _⟩ | ⟨_, _, h⟩ | ⟨_, _, _, h⟩ | ⟨_, h3, h4, _⟩
      · exact absurd h h1
      · exact h
      · exact h
      · rcases h2 with h2 | h2
        · exact absurd h2 h3
        · exact absurd h4 (not_lt.2 h2)
  have hres : ∀ x ∈ items, (∃ y, VecHistogram.displayRow (prec.getD 2) m x = .ok y) ∨ VecHistogram.displayRow (prec.getD 2) m x = .error .capacityOverflow := by
    rintro ⟨b, v⟩ -
    rcases hrow b v with ⟨_, h⟩ | ⟨_, _, h⟩ | ⟨_, _, _, h⟩ | ⟨_, _, _, h⟩
    · exact .inl ⟨_, h⟩
    · exact .inr h
    · exact .inr h
    · exact .inl ⟨_, h⟩
  obtain ⟨m1, m2⟩ := mapM_all_or_panic _ items _ hres
  have hhead : h.displayHeader into = .ok ("VecHistogram" ++ toString (Axis.numDim h.axes) ++ "D(" ++ toString n ++ " bins, sum=" ++
        Disp.fmt none ((h.values.map into).foldl Flt.add (f64 0)) ++ ")") := by
    unfold VecHistogram.displayHeader VecHistogram.displaySum VecHistogram.valuesIter
    rw [ok.lawful.numBins, hz]; rfl
  have hdisp : h.display into (fun _ => true) prec = (items.mapM (VecHistogram.displayRow (prec.getD 2) m)).map fun rows =>
      (("VecHistogram" ++ toString (Axis.numDim h.axes) ++ "D(" ++ toString n ++ " bins, sum=" ++
        Disp.fmt none ((h.values.map into).foldl Flt.add (f64 0)) ++ ")") :: rows, true) := by
    unfold VecHistogram.display
    simp only [hhead, hitems, hscale, bind, Except.bind, Bool.not_true, Bool.false_eq_true, if_false]
    cases items.mapM (VecHistogram.displayRow (prec.getD 2) m) with
    | error p => rfl
    | ok rows =>
      have : (rows.zipIdx 1).filterMap (fun r => if true = true then some r.1 else none) = rows := by
        simp only [if_true]
        rw [show (fun r : String × Nat => some r.1) = some ∘ Prod.fst from rfl, List.filterMap_eq_map, List.zipIdx_map_fst]
      simp only [if_true] at this
      simp only [pure, Except.pure, Except.map, if_true, this]
  constructor
  · intro hno
    obtain ⟨rows, r1, r2, r3⟩ := m2 (fun x hx he => by
      obtain ⟨v, hv, e⟩ := hmem x hx
      refine hno v hv ?_
      rw [← e]
      exact (herr x.1 x.2).1 he)
    refine ⟨rows, by rw [hdisp, r1]; rfl, by rw [r2, hi2], ?_⟩
    intro i hi
    obtain ⟨b, v, h1, h2, h3⟩ := hi3 i hi
    obtain ⟨row, r4, r5⟩ := r3 i _ h1
    exact ⟨b, v, row, h2, h3, r4, by rw [← r5]; exact hrow _ _⟩
  · rintro ⟨v, hv, ht⟩
    obtain ⟨x, hx, e⟩ := hmem' v hv
    rw [hdisp, m1 ⟨x, hx, (herr x.1 x.2).2 (by rw [e]; exact ht)⟩]; rfl

/-! ## Whole numbers -/

/-- the double of a whole number of up to 53 bits -/
theorem f64_int {z : Int} (h : |z| ≤ 2 ^ 53) : ∃ hr, f64 (z : ℚ) = .fin (decide (z < 0)) ((|z| : Int) : ℚ) hr := by
  have hn : |(z : ℚ)| = ((z.natAbs : Nat) : ℚ) := by
    rw [← Int.cast_abs, Int.abs_eq_natAbs]; simp
  have hr : FFmt.f64.Rep |(z : ℚ)| := by
    rw [hn]; apply FFmt.rep_nat
    have : (z.natAbs : Int) ≤ 2 ^ 53 := by rw [← Int.abs_eq_natAbs]; exact h
    show z.natAbs ≤ 2 ^ 53
    exact_mod_cast this
  have hrnd : FFmt.f64.rnd |(z : ℚ)| = |(z : ℚ)| := FFmt.rnd_repU _ hr.repU
  have hs : decide ((z : ℚ) < 0) = decide (z < 0) := by simp
  refine ⟨by rw [Int.cast_abs]; exact hr, ?_⟩
  unfold f64 Flt.ofRat Flt.round
  rw [dif_pos (by rw [hrnd]; exact hr.le_maxFin)]
  simp only [hrnd, hs, Int.cast_abs]

theorem sval_int (z : Int) : Flt.sval (decide (z < 0)) ((|z| : Int) : ℚ) = z := by
  unfold Flt.sval
  by_cases h : z < 0
  · simp [h, abs_of_neg h]
  · simp [h, abs_of_nonneg (not_lt.1 h)]

theorem add_int {a b : Int} (ha : |a| ≤ 2 ^ 53) (hb : |b| ≤ 2 ^ 53) : Flt.add (f64 (a : ℚ)) (f64 (b : ℚ)) = f64 ((a + b : Int) : ℚ) := by
  obtain ⟨h1, e1⟩ := f64_int ha
  obtain ⟨h2, e2⟩ := f64_int hb
  rw [e1, e2]
  simp only [Flt.add, sval_int]
  have hc : (a : ℚ) + b = ((a + b : Int) : ℚ) := by push_cast; ring
  rw [hc]
  by_cases h0 : a + b = 0
  · rw [h0]
    simp only [Int.cast_zero, if_true]
    have : (decide (a < 0) && decide (b < 0)) = false := by
      by_cases ha' : a < 0
      · have : ¬ b < 0 := by omega
        simp [this]
      · simp [ha']
    rw [this]; decide +kernel
  · rw [if_neg (by exact_mod_cast h0)]

theorem foldl_int : ∀ (l : List Int) (s : Int), |s| + (l.map fun z => |z|).sum ≤ 2 ^ 53 →
    (l.map fun z : Int => f64 (z : ℚ)).foldl Flt.add (f64 (s : ℚ)) = f64 ((s + l.sum : Int) : ℚ)
  | [], s, _ => by simp
  | z :: l, s, h => by
    simp only [List.map_cons, List.sum_cons] at h
    have hl : 0 ≤ (l.map fun z => |z|).sum := List.sum_nonneg (by simp)
    have hz := abs_nonneg z
    have hs := abs_nonneg s
    have ht := abs_add_le s z
    rw [List.map_cons, List.foldl_cons, add_int (by linarith) (by linarith), foldl_int l (s + z) (by linarith), List.sum_cons, add_assoc]

/-- **C68 (counts).** If every value is a whole number and their absolute values add up to at most `2^53` (so always for counts), printing shows the exact total and, on a 64-bit platform, does not
panic, also if all values are negative. -/
theorem C68_whole_numbers (hbits : cfg.usizeBits = 64) [Disp (Axis.Interval A)] [Disp F64] {h : VecHistogram A V} {n : Nat} (ok : h.Ok n) (into : V → F64) (prec : Option Nat)
    (z : V → Int) (hz : ∀ v ∈ h.values, into v = f64 (z v : ℚ)) (hsum : (h.values.map fun v => |z v|).sum ≤ 2 ^ 53) :
    ∃ rows, h.display into (fun _ => true) prec = .ok (("VecHistogram" ++ toString (Axis.numDim h.axes) ++ "D(" ++ toString n ++ " bins, sum=" ++
        Disp.fmt none (f64 (((h.values.map z).sum : Int) : ℚ)) ++ ")") :: rows, true) ∧ rows.length = min 50 n := by
  have hmapz : h.values.map into = (h.values.map z).map fun z : Int => f64 (z : ℚ) := by
    rw [List.map_map]; exact List.map_congr_left hz
  have hz1 : ∀ v ∈ h.values, |z v| ≤ 2 ^ 53 := by
    intro v hv
    have := List.single_le_sum (l := h.values.map fun v => |z v|) (by simp) (|z v|) (List.mem_map.2 ⟨v, hv, rfl⟩)
    linarith
  have htot : (h.values.map into).foldl Flt.add (f64 0) = f64 (((h.values.map z).sum : Int) : ℚ) := by
    have := foldl_int (h.values.map z) 0 (by rw [abs_zero, zero_add, List.map_map]; exact hsum)
    rw [hmapz]
    simpa using this
  have hm := scale_exists ((h.values.take 50).map into)
  set m := scaleOf ((h.values.take 50).map into)
  clear_value m
  have hfin : ∀ v ∈ h.values.take 50, (into v).isFin ∧ (into v).val = z v ∧ (into v).isNeg = decide (z v < 0) := by
    intro v hv
    have hv := List.mem_of_mem_take hv
    obtain ⟨h1, e1⟩ := f64_int (hz1 v hv)
    rw [hz v hv, e1]
    exact ⟨trivial, sval_int _, rfl⟩
  have hno : ∀ v ∈ h.values.take 50, ¬ TooLong (into v) m := by
    intro v hv
    obtain ⟨v1, v2, v3⟩ := hfin v hv
    have hnan : ∀ x ∈ (h.values.take 50).map into, x ≠ .nan := by
      intro x hx e
      obtain ⟨w, hw, e'⟩ := List.mem_map.1 hx
      have := (hfin w hw).1
      rw [e', e] at this; exact this
    -- the scale is one of the values and at least as large as `v`
    have hmem : ∃ w ∈ h.values.take 50, m = into w ∧ POrd.le (into v) m = true := by
      rcases hm with ⟨e1, -⟩ | ⟨pre, e1, -⟩ | ⟨pre, before, after, e1, e2, e3, e4, e5⟩
      · rw [List.map_eq_nil_iff] at e1
        rw [e1] at hv; simp at hv
      · exact absurd rfl (hnan .nan (by rw [e1]; simp))
      · have hpre : pre = [] := by
          rcases e2 with h | ⟨p, h⟩
          · exact h
          · exact absurd rfl (hnan .nan (by rw [e1, h]; simp))
        subst hpre
        have hmm : m ∈ (h.values.take 50).map into := by rw [e1]; simp
        obtain ⟨w, hw, e'⟩ := List.mem_map.1 hmm
        refine ⟨w, hw, e'.symm, ?_⟩
        have hvm : into v ∈ (h.values.take 50).map into := List.mem_map.2 ⟨v, hv, rfl⟩
        rw [e1] at hvm
        simp only [List.nil_append, List.mem_append, List.mem_cons] at hvm
        rcases hvm with h | h | h
        · exact e4 _ h
        · rw [h]
          have := (hfin w hw).1
          rw [e'] at this
          rw [Flt.le_fin this this]; simp
        · exact flt_le_of_lt (e5 _ h)
    obtain ⟨w, hw, e, hle⟩ := hmem
    obtain ⟨w1, w2, w3⟩ := hfin w hw
    rw [e, Flt.le_fin v1 w1, v2, w2] at hle
    have hle : z v ≤ z w := by exact_mod_cast of_decide_eq_true hle
    rintro ⟨hnb, ht⟩
    have hsign : (into v).isNeg = m.isNeg := by
      by_contra hc; exact hnb (.inr (.inr (.inr (.inr hc))))
    have hv0 : z v ≠ 0 := fun h0 => hnb (.inr (.inr (.inl ⟨v1, by rw [v2, h0]; simp⟩)))
    rw [e, v3, w3, decide_eq_decide] at hsign
    have hne : ¬ EndlessBar (into v) m := by
      rintro (⟨s, h⟩ | h)
      · rw [h] at v1; exact v1
      · have h2 := h.2
        rw [e, w2] at h2
        have : z w = 0 := by exact_mod_cast h2
        omega
    rcases ht with ht | ht
    · exact hne ht
    · obtain ⟨-, -, -, hm0, hq⟩ := ratio_pos hnb hne
      rw [e, v2, w2] at hq
      have hw0 : z w ≠ 0 := fun h0 => hm0 (by rw [e, w2, h0]; simp)
      have hq1 : (into v).val / m.val ≤ ((2 ^ 53 : Nat) : ℚ) := by
        rw [e, v2, w2, hq, ← Int.cast_abs, ← Int.cast_abs]
        have a1 : (1 : ℚ) ≤ ((|z w| : Int) : ℚ) := by exact_mod_cast Int.one_le_abs hw0
        have a2 : ((|z v| : Int) : ℚ) ≤ ((2 ^ 53 : Nat) : ℚ) := by exact_mod_cast hz1 v (List.mem_of_mem_take hv)
        rw [div_le_iff₀ (by linarith)]
        have : (0 : ℚ) ≤ ((2 ^ 53 : Nat) : ℚ) := by positivity
        nlinarith
      have hr1 : FFmt.f64.rs ((into v).val / m.val) ≤ ((2 ^ 53 : Nat) : ℚ) := by
        have := FFmt.rs_mono FFmt.f64 hq1
        rwa [FFmt.rs_of_rep FFmt.f64 (x := ((2 ^ 53 : Nat) : ℚ)) (by
          rw [abs_of_nonneg (by positivity)]; exact (FFmt.f64.rep_nat le_rfl).repU)] at this
      have hr2 : barLength (into v) m ≤ 50 * ((2 ^ 53 : Nat) : ℚ) := by
        have := FFmt.rs_mono FFmt.f64 (x := 50 * FFmt.f64.rs ((into v).val / m.val)) (y := 50 * ((2 ^ 53 : Nat) : ℚ)) (by linarith)
        rwa [show FFmt.f64.rs (50 * ((2 ^ 53 : Nat) : ℚ)) = 50 * ((2 ^ 53 : Nat) : ℚ) by decide +kernel] at this
      have hu : ((usizeSize / 2 : Nat) : ℚ) = ((2 ^ 63 : Nat) : ℚ) := by
        have : usizeSize / 2 = 2 ^ 63 := by unfold usizeSize; rw [hbits]; norm_num
        rw [this]
      rw [hu] at ht
      have := ht.trans hr2
      norm_num at this
  obtain ⟨rows, r1, r2, -⟩ := (C68_display (by omega) ok into prec hm).1 hno
  exact ⟨rows, by rw [r1, htot], r2⟩

/-- **C68 (sparse).** Printing a sparse histogram writes the header only. With whole numbers as above it shows the exact total, whatever the order of the map: the same as a dense histogram with these values. -/
theorem C68_sparse_whole_numbers [Disp F64] {h : HashHistogram A V} {n : Nat} (ok : h.Ok n) (into : V → F64) (o : h.values.Order)
    (z : V → Int) (hz : ∀ kv ∈ h.values.entries, into kv.2 = f64 (z kv.2 : ℚ)) (hsum : (h.values.entries.map fun kv => |z kv.2|).sum ≤ 2 ^ 53) :
    HashHistogram.display into h.axes (h.valuesIter o) = .ok ("HashHistogram" ++ toString (Axis.numDim h.axes) ++ "D(" ++ toString n ++ " bins, sum=" ++
        Disp.fmt none (f64 (((h.values.entries.map fun kv => z kv.2).sum : Int) : ℚ)) ++ ")") := by
  unfold HashHistogram.display
  rw [ok.lawful.numBins]
  have hzero : f64 0 = Flt.zero false := by decide +kernel
  have e1 : (h.valuesIter o).map into = (o.list.map fun kv => z kv.2).map fun z : Int => f64 (z : ℚ) := by
    unfold HashHistogram.valuesIter
    rw [List.map_map, List.map_map]
    exact List.map_congr_left fun kv hkv => hz kv (o.perm.mem_iff.1 hkv)
  have e2 : (o.list.map fun kv => z kv.2).sum = (h.values.entries.map fun kv => z kv.2).sum := (o.perm.map _).sum_eq
  have e3 : ((o.list.map fun kv => z kv.2).map fun z => |z|).sum = (h.values.entries.map fun kv => |z kv.2|).sum := by
    rw [List.map_map]; exact (o.perm.map _).sum_eq
  have := foldl_int (o.list.map fun kv => z kv.2) 0 (by rw [abs_zero, zero_add, e3]; exact hsum)
  rw [← e1, zero_add, e2] at this
  simp only [Int.cast_zero, hzero] at this
  simp only [bind, Except.bind, pure, Except.pure]
  rw [← this]
end
end NdHist
